import Verif.Props.ArcLengthShape
import Verif.Props.Line
import Verif.Props.Quadratic
import Verif.Props.Cubic
import Verif.Lemmas.SearchDistance

set_option linter.unusedSectionVars false

/-!
# How distances and flatness tests behave under similarities and other tolerances (C76, C77)
-/

namespace Stroke

variable {P Q : Type} [Point ℝ P] [LawfulPoint P] [Point ℝ Q] [LawfulPoint Q] {N : ℕ}

/-! ### Distances -/

/-- A loop whose states are related by `φ` in every step is related by `φ` at the end. -/
theorem forRange_map {σ τ : Type} (φ : σ → τ) {lo hi : ℕ} (f : ℕ → σ → σ) (g : ℕ → τ → τ)
    (h : ∀ i s, g i (φ s) = φ (f i s)) (s : σ) :
    forRange (m := Option) lo hi (φ s) (fun i s => some (g i s))
      = (forRange (m := Option) lo hi s (fun i s => some (f i s))).map φ := by
  by_cases hle : lo ≤ hi
  · induction hi, hle using Nat.le_induction generalizing s with
    | base => rw [forRange_empty le_rfl, forRange_empty le_rfl]; rfl
    | succ n hn ih =>
      rw [forRange_succ hn, forRange_succ hn, ih]
      cases forRange (m := Option) lo n s (fun i s => some (f i s)) with
      | none => rfl
      | some s' => show some (g n (φ s')) = some (φ (f n s')); rw [h]
  · rw [forRange_empty (by omega), forRange_empty (by omega)]; rfl

/-- The two passes of the search see only distances, so scaling these scales the result. -/
theorem searchDistance_similar {f : P → Q} {r : ℝ} (hr : 0 < r)
    (hf : ∀ p q, pdist (f p) (f q) = r * pdist p q) (g : ℝ → P) (a p : P) :
    searchDistance (fun t => some (f (g t))) (f a) (f p)
      = (searchDistance (fun t => some (g t)) a p).map (r * ·) := by
  have hr2 : (0 : ℝ) < r ^ 2 := by positivity
  have key : ∀ (u : ℝ) (t : ℝ) (s : ℝ × ℝ),
      (if pdist (f (g u)) (f p) ^ 2 < r ^ 2 * s.2 then (t, pdist (f (g u)) (f p) ^ 2)
        else (s.1, r ^ 2 * s.2))
      = (fun s : ℝ × ℝ => (s.1, r ^ 2 * s.2))
          (if pdist (g u) p ^ 2 < s.2 then (t, pdist (g u) p ^ 2) else s) := by
    intro u t s
    rw [hf, mul_pow]
    by_cases h : pdist (g u) p ^ 2 < s.2
    · rw [if_pos h, if_pos (by exact (mul_lt_mul_iff_right₀ hr2).2 h)]
    · rw [if_neg h, if_neg (by rw [mul_lt_mul_iff_right₀ hr2]; exact h)]
  have hc : ∀ s : ℝ × ℝ, coarsePass (fun t => some (f (g t))) (f p) (s.1, r ^ 2 * s.2)
      = (coarsePass (fun t => some (g t)) p s).map (fun s => (s.1, r ^ 2 * s.2)) := by
    intro s
    unfold coarsePass
    simp only [coarse_step (fun t => f (g t)), coarse_step g]
    exact forRange_map (fun s : ℝ × ℝ => (s.1, r ^ 2 * s.2)) _ _
      (fun i s => key _ _ s) s
  have hfine : ∀ s : ℝ × ℝ, finePass (fun t => some (f (g t))) (f p) (s.1, r ^ 2 * s.2)
      = (finePass (fun t => some (g t)) p s).map (fun s => (s.1, r ^ 2 * s.2)) := by
    intro s
    unfold finePass
    simp only [fine_step (fun t => f (g t)), fine_step g]
    exact forRange_map (fun s : ℝ × ℝ => (s.1, r ^ 2 * s.2)) _ _
      (fun i s => key _ _ s) s
  unfold searchDistance
  simp only []
  rw [show ((lit (1 / 2) : ℝ), Point.squaredLength (f p - f a))
      = ((lit (1 / 2) : ℝ), r ^ 2 * Point.squaredLength (p - a)) by
    rw [squaredLength_sub, squaredLength_sub, hf]; ring_nf]
  rw [hc (lit (1 / 2), Point.squaredLength (p - a))]
  cases coarsePass (fun t => some (g t)) p (lit (1 / 2), Point.squaredLength (p - a)) with
  | none => rfl
  | some s1 =>
    simp only [Option.map_some, Option.bind_eq_bind, Option.bind_some]
    rw [hfine s1]
    cases finePass (fun t => some (g t)) p s1 with
    | none => rfl
    | some s2 =>
      show some (Real.sqrt (r ^ 2 * s2.2)) = some (r * Real.sqrt s2.2)
      rw [Real.sqrt_mul (by positivity), Real.sqrt_sq hr.le]

/-- **C76** (curves): a similarity that scales distances by `r` scales what `distance_to_point`
returns by `r`.  With `r = 1` this covers translations, rotations and reflections. -/
theorem C76_curves {f : P → Q} {r : ℝ} (hr : 0 < r) (hf : IsSimilarity f r) (p : P) :
    (∀ a b c : P, (QuadraticBezier.new (f a) (f b) (f c)).distanceToPoint (f p)
      = ((QuadraticBezier.new a b c).distanceToPoint p).map (r * ·)) ∧
    (∀ a b c d : P, (CubicBezier.new (f a) (f b) (f c) (f d)).distanceToPoint (f p)
      = ((CubicBezier.new a b c d).distanceToPoint p).map (r * ·)) ∧
    (∀ b : Bezier P N, (Bezier.new fun k => f (b.control_points k)).distanceToPoint (f p)
      = (b.distanceToPoint p).map (r * ·)) := by
  refine ⟨fun a b c => ?_, fun a b c d => ?_, fun b => ?_⟩
  · rw [quadratic_distance_eq, quadratic_distance_eq]
    simp only [fun t => (C37_specialised f hf.1 a b c c t).2.1]
    exact searchDistance_similar hr hf.2 _ _ _
  · rw [cubic_distance_eq, cubic_distance_eq]
    simp only [fun t => (C37_specialised f hf.1 a b c d t).2.2]
    exact searchDistance_similar hr hf.2 _ _ _
  · rw [bezier_distance_eq, bezier_distance_eq]
    rcases Nat.eq_zero_or_pos N with rfl | hN
    · rfl
    have he : b.eval = fun t => some ((b.eval t).getD (b.control_points ⟨0, hN⟩)) := by
      funext t
      obtain ⟨q, hq, -⟩ := C30_eval b hN t
      rw [hq]; rfl
    have he' : (Bezier.new fun k => f (b.control_points k)).eval
        = fun t => some (f ((b.eval t).getD (b.control_points ⟨0, hN⟩))) := by
      funext t
      rw [C37_bezier f hf.1]
      obtain ⟨q, hq, -⟩ := C30_eval b hN t
      rw [hq]; rfl
    rw [he', Arr.get?_lt _ hN, Arr.get?_lt _ hN]
    simp only [Option.bind_some]
    generalize hg : (fun t => (b.eval t).getD (b.control_points ⟨0, hN⟩)) = g at *
    have he2 : b.eval = fun t => some (g t) := by rw [he, ← hg]
    have he3 : (fun t => some (f ((b.eval t).getD (b.control_points ⟨0, hN⟩))))
        = fun t => some (f (g t)) := by rw [← hg]
    rw [he3, he2]
    exact searchDistance_similar hr hf.2 _ _ _

/-- The scalar product in terms of distances. -/
theorem dot_polar (s e p : P) :
    ∑ i ∈ Finset.range (Point.dim P), (coord p i - coord s i) * (coord e i - coord s i)
      = (pdist p s ^ 2 + pdist e s ^ 2 - pdist p e ^ 2) / 2 := by
  have h : ∀ a b : P, pdist a b ^ 2
      = ∑ i ∈ Finset.range (Point.dim P), (coord a i - coord b i) ^ 2 := fun a b =>
    Real.sq_sqrt (Finset.sum_nonneg fun _ _ => sq_nonneg _)
  rw [h, h, h, ← Finset.sum_add_distrib, ← Finset.sum_sub_distrib, Finset.sum_div]
  exact Finset.sum_congr rfl fun i _ => by ring

/-- The parameter `distance_to_point` picks for the projection parameter `r`. -/
noncomputable def pickedParam (r : ℝ) : ℝ := if r < 1 then max r 0 else 0

/-- `distance_to_point` of a segment in terms of distances only. -/
theorem distance_closed (a b p : P) :
    (LineSegment.new a b).distanceToPoint p = some
      (if pdist a b ^ 2 < eps then pdist a p
       else pdist p ((LineSegment.new a b).eval
        (pickedParam ((pdist p a ^ 2 + pdist a b ^ 2 - pdist p b ^ 2) / 2 / pdist a b ^ 2)))) := by
  rw [distanceToPoint_eq]
  show some (if pdist b a ^ 2 < eps then pdist a p else _) = _
  rw [pdist_comm b a]
  congr 2
  have h := dot_polar a b p
  show pdist p ((LineSegment.new a b).eval (pickedParam ((∑ i ∈ Finset.range (Point.dim P),
    (coord p i - coord a i) * (coord b i - coord a i)) / pdist b a ^ 2))) = _
  rw [h, pdist_comm b a]

/-- **C76** (line segments; the part that holds): a similarity that scales distances by `r` scales
the distance by `r`, if it does not move the length of the segment across the cut-off
`sqrt EPSILON` below which a segment counts as a point.  Missing for the full claim: the other
segments (`C76_line_false`). -/
theorem C76_line_partial {f : P → Q} {r : ℝ} (hr : 0 < r) (hf : IsSimilarity f r) (a b p : P)
    (h : pdist a b ^ 2 < eps ↔ (r * pdist a b) ^ 2 < eps) :
    (LineSegment.new (f a) (f b)).distanceToPoint (f p)
      = ((LineSegment.new a b).distanceToPoint p).map (r * ·) := by
  have hr2 : r ^ 2 ≠ 0 := by positivity
  rw [distance_closed, distance_closed, Option.map_some]
  congr 1
  have e2 : ((r * pdist p a) ^ 2 + (r * pdist a b) ^ 2 - (r * pdist p b) ^ 2) / 2
        / (r * pdist a b) ^ 2
      = (pdist p a ^ 2 + pdist a b ^ 2 - pdist p b ^ 2) / 2 / pdist a b ^ 2 := by
    rw [show ((r * pdist p a) ^ 2 + (r * pdist a b) ^ 2 - (r * pdist p b) ^ 2) / 2
      = r ^ 2 * ((pdist p a ^ 2 + pdist a b ^ 2 - pdist p b ^ 2) / 2) by ring,
      mul_pow, mul_div_mul_left _ _ hr2]
  simp only [(C37_specialised f hf.1 a b a a _).1, hf.2, e2]
  by_cases hl : pdist a b ^ 2 < eps
  · rw [if_pos hl, if_pos (h.1 hl)]
  · rw [if_neg hl, if_neg (fun h' => hl (h.2 h'))]

/-- **C76** (line segments and rigid motions): translations, rotations and reflections do not
change the distance. -/
theorem C76_line_rigid {f : P → Q} (hf : IsSimilarity f 1) (a b p : P) :
    (LineSegment.new (f a) (f b)).distanceToPoint (f p)
      = (LineSegment.new a b).distanceToPoint p := by
  rw [C76_line_partial one_pos hf a b p (by rw [one_mul])]
  cases (LineSegment.new a b).distanceToPoint p <;> simp

/-- A point of the number line. -/
def pt1 (x : ℝ) : PointN ℝ 1 := PointN.new fun _ => x

@[simp] theorem coord_pt1 (x : ℝ) : coord (pt1 x) 0 = x := rfl

theorem pdist_pt1 (x y : ℝ) : pdist (pt1 x) (pt1 y) = |x - y| := pdist_pn1 x y

theorem pt1_mul (x s : ℝ) : pt1 x * s = pt1 (x * s) := by
  apply point_ext; intro i
  by_cases hi : i < 1
  · interval_cases i; simp
  · rw [coord_out _ hi, coord_out _ hi]

theorem eval_pt1 (x y t : ℝ) :
    (LineSegment.new (pt1 x) (pt1 y)).eval t = pt1 (x + (y - x) * t) := by
  apply point_ext; intro i
  by_cases hi : i < 1
  · interval_cases i; simp [LineSegment.eval, LineSegment.new]
  · rw [coord_out _ hi, coord_out _ hi]

/-- **C76** is false of line segments: the segment from 0 to 2^-27 has distance 2^-28 from its
midpoint according to `distance_to_point`, but the segment from 0 to 1 has distance 0 from its
midpoint. -/
theorem C76_line_false :
    ∃ (r : ℝ) (f : PointN ℝ 1 → PointN ℝ 1) (a b p : PointN ℝ 1), 0 < r ∧ IsSimilarity f r ∧
      (LineSegment.new a b).distanceToPoint p = some (1 / 2 ^ 28) ∧
      (LineSegment.new (f a) (f b)).distanceToPoint (f p) = some 0 := by
  refine ⟨|2 ^ 27|, fun p => p * 2 ^ 27, pt1 0, pt1 (1 / 2 ^ 27), pt1 (1 / 2 ^ 28), by positivity,
    scaling_similarity _, ?_, ?_⟩
  · rw [distance_closed, if_pos, pdist_pt1]
    · norm_num
    · rw [pdist_pt1, sq_abs]; unfold eps; norm_num
  · simp only [pt1_mul]
    rw [distance_closed, if_neg]
    · simp only [pdist_pt1, eval_pt1, pickedParam, sq_abs]
      norm_num
    · rw [pdist_pt1, sq_abs]; unfold eps; norm_num

/-- Test: the maps of C76 exist, and the distances need not vanish. -/
example : IsSimilarity (fun p : PointN ℝ 1 => p * (-3 : ℝ)) 3 ∧
    (QuadraticBezier.new (pt1 1) (pt1 1) (pt1 1)).distanceToPoint (pt1 3) ≠ some 0 := by
  refine ⟨by simpa using scaling_similarity (P := PointN ℝ 1) (-3), ?_⟩
  have hq : ∀ t, (QuadraticBezier.new (pt1 1) (pt1 1) (pt1 1)).eval t = pt1 1 := by
    intro t
    apply point_ext; intro i
    by_cases hi : i < 1
    · interval_cases i; simp [QuadraticBezier.eval, QuadraticBezier.new]; ring
    · rw [coord_out _ hi, coord_out _ hi]
  rw [quadratic_distance_eq]
  obtain ⟨r, hr, ⟨u, -, -, hu⟩, -⟩ := searchDistance_spec
    (QuadraticBezier.new (pt1 1) (pt1 1) (pt1 1)).eval (pt1 3)
  rw [hq 0] at hr
  show searchDistance _ (pt1 1) _ ≠ _
  rw [hr, hu, hq, pdist_pt1]
  norm_num

/-- Test: the condition of `C76_line_partial` holds whenever the segment and its image have
length at least 1. -/
example (a b : P) (r : ℝ) (h1 : 1 ≤ pdist a b) (h2 : 1 ≤ r) :
    pdist a b ^ 2 < eps ↔ (r * pdist a b) ^ 2 < eps := by
  have := eps_lt_one
  constructor <;> intro h <;> exfalso
  · nlinarith
  · have : 1 ≤ r * pdist a b := by nlinarith
    nlinarith

/-! ### Flatness tests -/

theorem quadratic_isLinear_closed (a b c : P) (tol : ℝ) : ∃ d : ℝ,
    (LineSegment.new a c).distanceToPoint b = some d ∧
    (QuadraticBezier.new a b c).isLinear tol = some (decide (eps ≤ pdist a c ^ 2 ∧ d ≤ tol)) :=
  ⟨_, distance_closed a c b,
    isLinear_eq (QuadraticBezier.new a b c) tol _ (distance_closed a c b)⟩

theorem cubic_isLinear_closed (a b c d : P) (tol : ℝ) : ∃ d1 d2 : ℝ,
    (LineSegment.new a d).distanceToPoint b = some d1 ∧
    (LineSegment.new a d).distanceToPoint c = some d2 ∧
    (CubicBezier.new a b c d).isLinear tol
      = some (decide (eps ≤ pdist a d ^ 2 ∧ d1 ≤ tol ∧ d2 ≤ tol)) :=
  ⟨_, _, distance_closed a d b, distance_closed a d c,
    cubic_isLinear_eq (CubicBezier.new a b c d) tol _ _ (distance_closed a d b)
      (distance_closed a d c)⟩

theorem quadratic_isAPoint_closed (a b c : P) (tol : ℝ) :
    (QuadraticBezier.new a b c).isAPoint tol = decide (pdist a c ≤ |tol| ∧ pdist a b ≤ |tol|) := by
  have h : ∀ p q : P, pdist p q ^ 2 ≤ tol * tol ↔ pdist p q ≤ |tol| := fun p q => by
    rw [← sq, sq_le_sq, abs_of_nonneg (pdist_nonneg _ _)]
  simp only [QuadraticBezier.isAPoint, QuadraticBezier.new, squaredLength_sub, le_real, h,
    Bool.decide_and]

theorem cubic_isAPoint_closed (a b c d : P) (tol : ℝ) :
    (CubicBezier.new a b c d).isAPoint tol
      = decide (pdist a d ≤ |tol| ∧ pdist a b ≤ |tol| ∧ pdist d c ≤ |tol|) := by
  have h : ∀ p q : P, pdist p q ^ 2 ≤ tol * tol ↔ pdist p q ≤ |tol| := fun p q => by
    rw [← sq, sq_le_sq, abs_of_nonneg (pdist_nonneg _ _)]
  simp only [CubicBezier.isAPoint, CubicBezier.new, squaredLength_sub, le_real, h,
    Bool.decide_and, Bool.and_assoc]

/-- **C77** (tolerance): a curve accepted with some tolerance is accepted with every larger one.
For `is_a_point` only the absolute value of the tolerance counts; `is_linear` rejects every curve
when the tolerance is negative. -/
theorem C77_tolerance (tol tol' : ℝ) :
    (tol ≤ tol' → ∀ a b c d : P,
      ((QuadraticBezier.new a b c).isLinear tol = some true →
        (QuadraticBezier.new a b c).isLinear tol' = some true) ∧
      ((CubicBezier.new a b c d).isLinear tol = some true →
        (CubicBezier.new a b c d).isLinear tol' = some true)) ∧
    (|tol| ≤ |tol'| → ∀ a b c d : P,
      ((QuadraticBezier.new a b c).isAPoint tol = true →
        (QuadraticBezier.new a b c).isAPoint tol' = true) ∧
      ((CubicBezier.new a b c d).isAPoint tol = true →
        (CubicBezier.new a b c d).isAPoint tol' = true)) ∧
    (tol < 0 → ∀ a b c d : P,
      (QuadraticBezier.new a b c).isLinear tol = some false ∧
      (CubicBezier.new a b c d).isLinear tol = some false) := by
  have hnn : ∀ (a b p : P) (x : ℝ), (LineSegment.new a b).distanceToPoint p = some x → 0 ≤ x := by
    intro a b p x h
    rw [distance_closed] at h
    rw [← Option.some.inj h]
    split <;> exact pdist_nonneg _ _
  refine ⟨fun h a b c d => ⟨?_, ?_⟩, fun h a b c d => ⟨?_, ?_⟩, fun h a b c d => ⟨?_, ?_⟩⟩
  · obtain ⟨x, hx, e⟩ := quadratic_isLinear_closed a b c tol
    obtain ⟨y, hy, e'⟩ := quadratic_isLinear_closed a b c tol'
    rw [hx] at hy; cases hy
    rw [e, e']
    simp only [Option.some.injEq, decide_eq_true_eq]
    exact fun ⟨h1, h2⟩ => ⟨h1, h2.trans h⟩
  · obtain ⟨x, y, hx, hy, e⟩ := cubic_isLinear_closed a b c d tol
    obtain ⟨x', y', hx', hy', e'⟩ := cubic_isLinear_closed a b c d tol'
    rw [hx] at hx'; cases hx'
    rw [hy] at hy'; cases hy'
    rw [e, e']
    simp only [Option.some.injEq, decide_eq_true_eq]
    exact fun ⟨h1, h2, h3⟩ => ⟨h1, h2.trans h, h3.trans h⟩
  · rw [quadratic_isAPoint_closed, quadratic_isAPoint_closed]
    simp only [decide_eq_true_eq]
    exact fun ⟨h1, h2⟩ => ⟨h1.trans h, h2.trans h⟩
  · rw [cubic_isAPoint_closed, cubic_isAPoint_closed]
    simp only [decide_eq_true_eq]
    exact fun ⟨h1, h2, h3⟩ => ⟨h1.trans h, h2.trans h, h3.trans h⟩
  · obtain ⟨x, hx, e⟩ := quadratic_isLinear_closed a b c tol
    have := hnn _ _ _ _ hx
    rw [e, decide_eq_false (fun h' => absurd (h'.2) (by linarith))]
  · obtain ⟨x, y, hx, hy, e⟩ := cubic_isLinear_closed a b c d tol
    have := hnn _ _ _ _ hx
    rw [e, decide_eq_false (fun h' => absurd (h'.2.1) (by linarith))]

/-- **C77** (rigid motions): the answers do not change under translations, rotations and
reflections. -/
theorem C77_rigid {f : P → Q} (hf : IsSimilarity f 1) (a b c d : P) (tol : ℝ) :
    (QuadraticBezier.new (f a) (f b) (f c)).isLinear tol
      = (QuadraticBezier.new a b c).isLinear tol ∧
    (QuadraticBezier.new (f a) (f b) (f c)).isAPoint tol
      = (QuadraticBezier.new a b c).isAPoint tol ∧
    (CubicBezier.new (f a) (f b) (f c) (f d)).isLinear tol
      = (CubicBezier.new a b c d).isLinear tol ∧
    (CubicBezier.new (f a) (f b) (f c) (f d)).isAPoint tol
      = (CubicBezier.new a b c d).isAPoint tol := by
  have hp : ∀ p q, pdist (f p) (f q) = pdist p q := fun p q => by rw [hf.2, one_mul]
  refine ⟨?_, ?_, ?_, ?_⟩
  · obtain ⟨x, hx, e⟩ := quadratic_isLinear_closed a b c tol
    obtain ⟨y, hy, e'⟩ := quadratic_isLinear_closed (f a) (f b) (f c) tol
    rw [C76_line_rigid hf, hx] at hy; cases hy
    rw [e, e', hp]
  · rw [quadratic_isAPoint_closed, quadratic_isAPoint_closed, hp, hp]
  · obtain ⟨x, y, hx, hy, e⟩ := cubic_isLinear_closed a b c d tol
    obtain ⟨x', y', hx', hy', e'⟩ := cubic_isLinear_closed (f a) (f b) (f c) (f d) tol
    rw [C76_line_rigid hf, hx] at hx'; cases hx'
    rw [C76_line_rigid hf, hy] at hy'; cases hy'
    rw [e, e', hp]
  · rw [cubic_isAPoint_closed, cubic_isAPoint_closed, hp, hp, hp]

/-- **C77** (direction of travel; the part that holds): `is_a_point` of cubic curves does not
depend on the direction, and reversing a quadratic curve at most doubles the tolerance needed.
Missing for the full claim: `C77_reversal_false`. -/
theorem C77_reversal_partial (a b c d : P) (tol : ℝ) :
    (CubicBezier.new d c b a).isAPoint tol = (CubicBezier.new a b c d).isAPoint tol ∧
    ((QuadraticBezier.new a b c).isAPoint tol = true →
      (QuadraticBezier.new c b a).isAPoint (2 * tol) = true) := by
  constructor
  · rw [cubic_isAPoint_closed, cubic_isAPoint_closed, pdist_comm d a]
    congr 1
    exact propext ⟨fun ⟨h1, h2, h3⟩ => ⟨h1, h3, h2⟩, fun ⟨h1, h2, h3⟩ => ⟨h1, h3, h2⟩⟩
  · rw [quadratic_isAPoint_closed, quadratic_isAPoint_closed]
    simp only [decide_eq_true_eq, abs_mul, abs_two]
    intro ⟨h1, h2⟩
    have h3 := pdist_triangle c a b
    rw [pdist_comm c a] at h3 ⊢
    have := abs_nonneg tol
    exact ⟨by linarith, by linarith⟩

/-- **C77** is false for the direction of travel: `is_linear` of quadratic and cubic curves and
`is_a_point` of quadratic curves can change their answer when the curve is reversed. -/
theorem C77_reversal_false :
    (∃ a b c : PointN ℝ 1, (QuadraticBezier.new a b c).isLinear (1 : ℝ) = some true ∧
      (QuadraticBezier.new c b a).isLinear (1 : ℝ) = some false) ∧
    (∃ a b c d : PointN ℝ 1, (CubicBezier.new a b c d).isLinear (1 : ℝ) = some true ∧
      (CubicBezier.new d c b a).isLinear (1 : ℝ) = some false) ∧
    (∃ a b c : PointN ℝ 1, (QuadraticBezier.new a b c).isAPoint (1 : ℝ) = true ∧
      (QuadraticBezier.new c b a).isAPoint (1 : ℝ) = false) := by
  have he := eps_lt_one
  have hd1 : (LineSegment.new (pt1 0) (pt1 4)).distanceToPoint (pt1 (-1)) = some (1 : ℝ) := by
    rw [distance_closed, if_neg (by rw [pdist_pt1]; norm_num; linarith)]
    simp only [pdist_pt1, eval_pt1, pickedParam, sq_abs]
    norm_num
  have hd5 : (LineSegment.new (pt1 4) (pt1 0)).distanceToPoint (pt1 (-1)) = some (5 : ℝ) := by
    rw [distance_closed, if_neg (by rw [pdist_pt1]; norm_num; linarith)]
    simp only [pdist_pt1, eval_pt1, pickedParam, sq_abs]
    norm_num
  have hl : eps ≤ pdist (pt1 0) (pt1 4) ^ 2 := by rw [pdist_pt1]; norm_num; linarith
  refine ⟨⟨pt1 0, pt1 (-1), pt1 4, ?_, ?_⟩, ⟨pt1 0, pt1 (-1), pt1 (-1), pt1 4, ?_, ?_⟩,
    ⟨pt1 0, pt1 1, pt1 (-1), ?_, ?_⟩⟩
  · obtain ⟨x, hx, e⟩ := quadratic_isLinear_closed (pt1 0) (pt1 (-1)) (pt1 4) 1
    rw [hd1] at hx; cases hx
    rw [e, decide_eq_true ⟨hl, le_rfl⟩]
  · obtain ⟨x, hx, e⟩ := quadratic_isLinear_closed (pt1 4) (pt1 (-1)) (pt1 0) 1
    rw [hd5] at hx; cases hx
    rw [e, decide_eq_false (by norm_num)]
  · obtain ⟨x, y, hx, hy, e⟩ := cubic_isLinear_closed (pt1 0) (pt1 (-1)) (pt1 (-1)) (pt1 4) 1
    rw [hd1] at hx hy; cases hx; cases hy
    rw [e, decide_eq_true ⟨hl, le_rfl, le_rfl⟩]
  · obtain ⟨x, y, hx, hy, e⟩ := cubic_isLinear_closed (pt1 4) (pt1 (-1)) (pt1 (-1)) (pt1 0) 1
    rw [hd5] at hx hy; cases hx; cases hy
    rw [e, decide_eq_false (by norm_num)]
  · rw [quadratic_isAPoint_closed, pdist_pt1, pdist_pt1]; norm_num
  · rw [quadratic_isAPoint_closed, pdist_pt1, pdist_pt1]; norm_num

/-- Test: the tests accept curves that are not constant. -/
example : (QuadraticBezier.new (pt1 0) (pt1 (-1)) (pt1 1)).isAPoint (1 : ℝ) = true := by
  rw [quadratic_isAPoint_closed, pdist_pt1, pdist_pt1]; norm_num

end Stroke
