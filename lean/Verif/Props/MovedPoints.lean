import Verif.Props.Lipschitz
import Verif.Props.BoundingBox
import Verif.Props.LengthBounds
import Verif.Props.Invariance

/-!
# Lengths, boxes and tests after moving the control points (C133)

C72 bounds how far the points of a curve move when its control points are moved.  This file does the
same for what is measured on the curve: `arclen`, `bounding_box` and `is_a_point`.
-/

namespace Stroke

variable {P : Type} [Point ℝ P] [LawfulPoint P] {N : ℕ}

/-! ### Length -/

/-- The polyline through the differences bounds the difference of the polyline lengths. -/
theorem polyline_diff {f g h : ℕ → P} (hd : ∀ i, h i = f i - g i) (a b : ℕ) :
    |polylineLength f a b - polylineLength g a b| ≤ polylineLength h a b := by
  unfold polylineLength
  rw [← Finset.sum_sub_distrib]
  refine (Finset.abs_sum_le_sum_abs _ _).trans (Finset.sum_le_sum fun i _ => ?_)
  simp only [pdist_eq_norm, hd, toE_sub]
  refine (abs_norm_sub_norm_le _ _).trans (le_of_eq ?_)
  congr 1
  abel

/-- **C133**: moving the control points changes the reported length by at most the length of the
polygon through the displacement vectors, however many steps are taken; so if no control point moves
by more than `δ`, by at most `2·degree·δ`. -/
theorem C133_arclen (b b' : Bezier P N) (hN : 1 ≤ N) (n : ℕ) :
    ∃ x x', b.arclen n = some x ∧ b'.arclen n = some x' ∧
      |x - x'| ≤ controlPolygonLength (fun k => b.control_points k - b'.control_points k) ∧
      ∀ δ : ℝ, (∀ k, pdist (b.control_points k) (b'.control_points k) ≤ δ) →
        |x - x'| ≤ 2 * ((N - 1 : ℕ) : ℝ) * δ := by
  obtain ⟨f, hf, ha⟩ := C39_actual b hN
  obtain ⟨f', hf', ha'⟩ := C39_actual b' hN
  let d : Bezier P N := ⟨fun k => b.control_points k - b'.control_points k⟩
  obtain ⟨g, hg, _⟩ := C39_actual d hN
  have hc : ∀ (b : Bezier P N) (f : ℝ → P), (∀ t, b.eval t = some (f t)) → ∀ (t : ℝ) (i : ℕ),
      coord (f t) i = bezierCoord b.control_points t i := by
    intro b f hf t i
    obtain ⟨p, hp, h⟩ := C30_eval b hN t
    rw [hf] at hp
    cases hp
    exact h i
  have hd : ∀ t, g t = f t - f' t := by
    intro t
    apply point_ext
    intro i
    rw [coord_sub, hc d g hg, hc b f hf, hc b' f' hf']
    simp only [d, bezierCoord, coord_sub, mul_sub, Finset.sum_sub_distrib]
  have hle : |polylineLength (fun i : ℕ => f ((i : ℝ) / n)) 1 n
      - polylineLength (fun i : ℕ => f' ((i : ℝ) / n)) 1 n|
      ≤ controlPolygonLength (fun k => b.control_points k - b'.control_points k) :=
    (polyline_diff (fun i => hd _) 1 n).trans (sampled_le_polygon d hN g hg n)
  refine ⟨_, _, ha n, ha' n, hle, fun δ hδ => hle.trans ?_⟩
  unfold controlPolygonLength
  have : ∀ k ∈ Finset.range (N - 1), (if h : k + 1 < N then
      pdist (b.control_points ⟨k, by omega⟩ - b'.control_points ⟨k, by omega⟩)
        (b.control_points ⟨k + 1, h⟩ - b'.control_points ⟨k + 1, h⟩) else 0) ≤ 2 * δ := by
    intro k hk
    rw [dif_pos (by have := Finset.mem_range.1 hk; omega)]
    have h1 := hδ ⟨k, by have := Finset.mem_range.1 hk; omega⟩
    have h2 := hδ ⟨k + 1, by have := Finset.mem_range.1 hk; omega⟩
    rw [pdist_eq_norm] at h1 h2 ⊢
    rw [toE_sub, toE_sub]
    exact (norm_sub_le _ _).trans (by linarith)
  refine (Finset.sum_le_sum this).trans (le_of_eq ?_)
  rw [Finset.sum_const, Finset.card_range, nsmul_eq_mul]
  ring

/-- **C133** for the specialised curves: `4δ` and `6δ`. -/
theorem C133_arclen_specialised (q q' : QuadraticBezier P) (c c' : CubicBezier P) (n : ℕ) (δ : ℝ) :
    (pdist q.start q'.start ≤ δ → pdist q.ctrl q'.ctrl ≤ δ → pdist q.end_ q'.end_ ≤ δ →
      ∃ x x', q.arclen n = some x ∧ q'.arclen n = some x' ∧ |x - x'| ≤ 4 * δ) ∧
    (pdist c.start c'.start ≤ δ → pdist c.ctrl1 c'.ctrl1 ≤ δ → pdist c.ctrl2 c'.ctrl2 ≤ δ →
      pdist c.end_ c'.end_ ≤ δ →
      ∃ x x', c.arclen n = some x ∧ c'.arclen n = some x' ∧ |x - x'| ≤ 6 * δ) := by
  constructor
  · intro h1 h2 h3
    obtain ⟨x, x', hx, hx', -, h⟩ := C133_arclen (Bezier.new ![q.start, q.ctrl, q.end_])
      (Bezier.new ![q'.start, q'.ctrl, q'.end_]) (by norm_num) n
    obtain ⟨f, hf, ha⟩ := C39_actual (Bezier.new ![q.start, q.ctrl, q.end_]) (by norm_num)
    obtain ⟨f', hf', ha'⟩ := C39_actual (Bezier.new ![q'.start, q'.ctrl, q'.end_]) (by norm_num)
    have e : f = fun t => q.eval t := funext fun t => by
      have := hf t
      rw [C32_quadratic_eval] at this
      exact (Option.some.inj this).symm
    have e' : f' = fun t => q'.eval t := funext fun t => by
      have := hf' t
      rw [C32_quadratic_eval] at this
      exact (Option.some.inj this).symm
    subst e; subst e'
    rw [ha n] at hx
    rw [ha' n] at hx'
    cases hx; cases hx'
    refine ⟨_, _, C15_actual q n, C15_actual q' n, (h δ ?_).trans (by norm_num)⟩
    intro k
    fin_cases k <;> simpa [Bezier.new]
  · intro h1 h2 h3 h4
    obtain ⟨x, x', hx, hx', -, h⟩ := C133_arclen (Bezier.new ![c.start, c.ctrl1, c.ctrl2, c.end_])
      (Bezier.new ![c'.start, c'.ctrl1, c'.ctrl2, c'.end_]) (by norm_num) n
    obtain ⟨f, hf, ha⟩ := C39_actual (Bezier.new ![c.start, c.ctrl1, c.ctrl2, c.end_]) (by norm_num)
    obtain ⟨f', hf', ha'⟩ := C39_actual (Bezier.new ![c'.start, c'.ctrl1, c'.ctrl2, c'.end_])
      (by norm_num)
    have e : f = fun t => c.eval t := funext fun t => by
      have := hf t
      rw [C32_cubic_eval] at this
      exact (Option.some.inj this).symm
    have e' : f' = fun t => c'.eval t := funext fun t => by
      have := hf' t
      rw [C32_cubic_eval] at this
      exact (Option.some.inj this).symm
    subst e; subst e'
    rw [ha n] at hx
    rw [ha' n] at hx'
    cases hx; cases hx'
    refine ⟨_, _, C26_actual c n, C26_actual c' n, (h δ ?_).trans (by norm_num)⟩
    intro k
    fin_cases k <;> simpa [Bezier.new]

/-- **C133**: the same for the true arc lengths. -/
theorem C133_arc_length (b b' : Bezier P N) (hN : 1 ≤ N) (δ : ℝ)
    (h : ∀ k, pdist (b.control_points k) (b'.control_points k) ≤ δ) :
    |arcLength (Point.dim P) (fun t i => deriv (fun u => bezierCoord b.controlPoints u i) t)
      - arcLength (Point.dim P) (fun t i => deriv (fun u => bezierCoord b'.controlPoints u i) t)|
      ≤ 2 * ((N - 1 : ℕ) : ℝ) * δ := by
  obtain ⟨L, hL, _, ht⟩ := C39_partial b hN
  obtain ⟨L', hL', _, ht'⟩ := C39_partial b' hN
  refine le_of_tendsto' (ht.sub ht').abs fun n => ?_
  obtain ⟨x, x', hx, hx', -, hh⟩ := C133_arclen b b' hN n
  rw [hL n] at hx
  rw [hL' n] at hx'
  cases hx; cases hx'
  exact hh δ h

/-- The two bounds of `C133_arclen` agree for a segment pulled apart by `δ` at either end, which gets
longer by `2δ`. -/
example (δ : ℝ) (hδ : 0 ≤ δ) : ∃ b b' : Bezier (PointN ℝ 1) 2,
    (∀ k, pdist (b.control_points k) (b'.control_points k) ≤ δ) ∧
    controlPolygonLength (fun k => b.control_points k - b'.control_points k)
      = 2 * ((2 - 1 : ℕ) : ℝ) * δ := by
  refine ⟨Bezier.new ![PointN.new fun _ => 0, PointN.new fun _ => 1],
    Bezier.new ![PointN.new fun _ => -δ, PointN.new fun _ => 1 + δ], fun k => ?_, ?_⟩
  · fin_cases k <;> simp [Bezier.new, pdist_pn1, abs_of_nonneg hδ]
  · simp only [controlPolygonLength, Bezier.new]
    have e : ∀ x y : ℝ, (PointN.new (fun _ : Fin 1 => x) - PointN.new fun _ => y)
        = PointN.new (fun _ => x - y) := fun x y => rfl
    norm_num [e, pdist_pn1]
    rw [abs_of_nonneg (by linarith)]
    ring

/-! ### Boxes -/

/-- Two curves that are never more than `δ` apart, each filling its interval up to `e`. -/
theorem ends_close {f g : ℝ → ℝ} {a b a' b' δ e : ℝ} (hfg : ∀ t, 0 ≤ t → t ≤ 1 → |f t - g t| ≤ δ)
    (cf : ContainsRange f (a - e) (b + e)) (af : AttainsEnds f a b)
    (cg : ContainsRange g (a' - e) (b' + e)) (ag : AttainsEnds g a' b') :
    |a - a'| ≤ δ + e ∧ |b - b'| ≤ δ + e := by
  obtain ⟨⟨s, s0, s1, hs⟩, ⟨t, t0, t1, ht⟩⟩ := af
  obtain ⟨⟨s', s0', s1', hs'⟩, ⟨t', t0', t1', ht'⟩⟩ := ag
  have := abs_le.1 (hfg s s0 s1)
  have := abs_le.1 (hfg t t0 t1)
  have := abs_le.1 (hfg s' s0' s1')
  have := abs_le.1 (hfg t' t0' t1')
  have := cf s' s0' s1'
  have := cf t' t0' t1'
  have := cg s s0 s1
  have := cg t t0 t1
  exact ⟨abs_le.2 ⟨by linarith, by linarith⟩, abs_le.2 ⟨by linarith, by linarith⟩⟩

/-- **C133**: if the coordinates of no control point change by more than `δ` on axis `i`, the bounds
of `bounding_box` on this axis change by at most `δ` for segments, `δ + EPSILON/8` for quadratic and
`δ + EPSILON/3` for cubic curves. -/
theorem C133_bounding_box (l l' : LineSegment P) (q q' : QuadraticBezier P) (c c' : CubicBezier P) :
    (∃ box box', l.boundingBox = some box ∧ l'.boundingBox = some box' ∧
      ∀ (i : Fin (Point.dim P)) (δ : ℝ), |coord l.start i - coord l'.start i| ≤ δ →
        |coord l.end_ i - coord l'.end_ i| ≤ δ →
        |(box i).1 - (box' i).1| ≤ δ ∧ |(box i).2 - (box' i).2| ≤ δ) ∧
    (∃ box box', q.boundingBox = some box ∧ q'.boundingBox = some box' ∧
      ∀ (i : Fin (Point.dim P)) (δ : ℝ), |coord q.start i - coord q'.start i| ≤ δ →
        |coord q.ctrl i - coord q'.ctrl i| ≤ δ → |coord q.end_ i - coord q'.end_ i| ≤ δ →
        |(box i).1 - (box' i).1| ≤ δ + eps / 8 ∧ |(box i).2 - (box' i).2| ≤ δ + eps / 8) ∧
    (∃ box box', c.boundingBox = some box ∧ c'.boundingBox = some box' ∧
      ∀ (i : Fin (Point.dim P)) (δ : ℝ), |coord c.start i - coord c'.start i| ≤ δ →
        |coord c.ctrl1 i - coord c'.ctrl1 i| ≤ δ → |coord c.ctrl2 i - coord c'.ctrl2 i| ≤ δ →
        |coord c.end_ i - coord c'.end_ i| ≤ δ →
        |(box i).1 - (box' i).1| ≤ δ + eps / 3 ∧ |(box i).2 - (box' i).2| ≤ δ + eps / 3) := by
  refine ⟨?_, ?_, ?_⟩
  · obtain ⟨box, hb, h⟩ := C09_bounding_box l
    obtain ⟨box', hb', h'⟩ := C09_bounding_box l'
    refine ⟨box, box', hb, hb', fun i δ h1 h2 => ?_⟩
    have := ends_close (f := fun t => coord (l.eval t) i) (g := fun t => coord (l'.eval t) i)
      (δ := δ) (e := 0) (fun t t0 t1 => ?_) (by simpa using (h i).2.1) (h i).2.2
      (by simpa using (h' i).2.1) (h' i).2.2
    · simpa using this
    · rw [C05_eval, C05_eval, show (1 - t) * coord l.start i + t * coord l.end_ i
          - ((1 - t) * coord l'.start i + t * coord l'.end_ i)
        = (1 - t) * (coord l.start i - coord l'.start i)
          + t * (coord l.end_ i - coord l'.end_ i) by ring]
      have s0 : 0 ≤ 1 - t := by linarith
      rw [abs_le] at h1 h2 ⊢
      constructor <;> nlinarith [mul_le_mul_of_nonneg_left h1.1 s0, mul_le_mul_of_nonneg_left h1.2 s0,
        mul_le_mul_of_nonneg_left h2.1 t0, mul_le_mul_of_nonneg_left h2.2 t0]
  · obtain ⟨box, hb, h⟩ := C13_contains q
    obtain ⟨box', hb', h'⟩ := C13_contains q'
    obtain ⟨_, hb2, a⟩ := C14_tight q
    obtain ⟨_, hb2', a'⟩ := C14_tight q'
    rw [hb] at hb2; cases hb2
    rw [hb'] at hb2'; cases hb2'
    refine ⟨box, box', hb, hb', fun i δ h1 h2 h3 => ?_⟩
    refine ends_close (f := fun t => coord (q.eval t) i) (g := fun t => coord (q'.eval t) i)
      (fun t t0 t1 => ?_) (h i) (a i).2 (h' i) (a' i).2
    rw [C10_eval, C10_eval, show ∀ A B C A' B' C' : ℝ, (1 - t) ^ 2 * A + 2 * t * (1 - t) * B + t ^ 2 * C
          - ((1 - t) ^ 2 * A' + 2 * t * (1 - t) * B' + t ^ 2 * C')
        = (1 - t) ^ 2 * (A - A') + 2 * t * (1 - t) * (B - B') + t ^ 2 * (C - C') by
      intros; ring]
    have s0 : 0 ≤ 1 - t := by linarith
    have w1 : 0 ≤ (1 - t) ^ 2 := sq_nonneg _
    have w2 : 0 ≤ 2 * t * (1 - t) := by positivity
    have w3 : 0 ≤ t ^ 2 := sq_nonneg _
    rw [abs_le] at h1 h2 h3 ⊢
    constructor
    · linarith [mul_le_mul_of_nonneg_left h1.1 w1, mul_le_mul_of_nonneg_left h2.1 w2,
        mul_le_mul_of_nonneg_left h3.1 w3,
        show (1 - t) ^ 2 * -δ + 2 * t * (1 - t) * -δ + t ^ 2 * -δ = -δ by ring]
    · linarith [mul_le_mul_of_nonneg_left h1.2 w1, mul_le_mul_of_nonneg_left h2.2 w2,
        mul_le_mul_of_nonneg_left h3.2 w3,
        show (1 - t) ^ 2 * δ + 2 * t * (1 - t) * δ + t ^ 2 * δ = δ by ring]
  · obtain ⟨box, hb, h⟩ := C24_contains c
    obtain ⟨box', hb', h'⟩ := C24_contains c'
    obtain ⟨_, hb2, a⟩ := C25_tight c
    obtain ⟨_, hb2', a'⟩ := C25_tight c'
    rw [hb] at hb2; cases hb2
    rw [hb'] at hb2'; cases hb2'
    refine ⟨box, box', hb, hb', fun i δ h1 h2 h3 h4 => ?_⟩
    refine ends_close (f := fun t => coord (c.eval t) i) (g := fun t => coord (c'.eval t) i)
      (fun t t0 t1 => ?_) (h i) (a i).2 (h' i) (a' i).2
    rw [C20_eval, C20_eval, show ∀ A B C D A' B' C' D' : ℝ,
        (1 - t) ^ 3 * A + 3 * t * (1 - t) ^ 2 * B + 3 * t ^ 2 * (1 - t) * C + t ^ 3 * D
          - ((1 - t) ^ 3 * A' + 3 * t * (1 - t) ^ 2 * B' + 3 * t ^ 2 * (1 - t) * C' + t ^ 3 * D')
        = (1 - t) ^ 3 * (A - A') + 3 * t * (1 - t) ^ 2 * (B - B') + 3 * t ^ 2 * (1 - t) * (C - C')
          + t ^ 3 * (D - D') by
      intros; ring]
    have s0 : 0 ≤ 1 - t := by linarith
    have w1 : 0 ≤ (1 - t) ^ 3 := by positivity
    have w2 : 0 ≤ 3 * t * (1 - t) ^ 2 := by positivity
    have w3 : 0 ≤ 3 * t ^ 2 * (1 - t) := by positivity
    have w4 : 0 ≤ t ^ 3 := by positivity
    rw [abs_le] at h1 h2 h3 h4 ⊢
    constructor
    · linarith [mul_le_mul_of_nonneg_left h1.1 w1, mul_le_mul_of_nonneg_left h2.1 w2,
        mul_le_mul_of_nonneg_left h3.1 w3, mul_le_mul_of_nonneg_left h4.1 w4,
        show (1 - t) ^ 3 * -δ + 3 * t * (1 - t) ^ 2 * -δ + 3 * t ^ 2 * (1 - t) * -δ + t ^ 3 * -δ
          = -δ by ring]
    · linarith [mul_le_mul_of_nonneg_left h1.2 w1, mul_le_mul_of_nonneg_left h2.2 w2,
        mul_le_mul_of_nonneg_left h3.2 w3, mul_le_mul_of_nonneg_left h4.2 w4,
        show (1 - t) ^ 3 * δ + 3 * t * (1 - t) ^ 2 * δ + 3 * t ^ 2 * (1 - t) * δ + t ^ 3 * δ
          = δ by ring]

/-! ### The point test -/

/-- **C133**: a curve that passes `is_a_point(tol)` still passes with `tol + 2δ` after moving every
control point by at most `δ`. -/
theorem C133_is_a_point (q q' : QuadraticBezier P) (c c' : CubicBezier P) (tol δ : ℝ)
    (htol : 0 ≤ tol) :
    (pdist q.start q'.start ≤ δ → pdist q.ctrl q'.ctrl ≤ δ → pdist q.end_ q'.end_ ≤ δ →
      q.isAPoint tol = true → q'.isAPoint (tol + 2 * δ) = true) ∧
    (pdist c.start c'.start ≤ δ → pdist c.ctrl1 c'.ctrl1 ≤ δ → pdist c.ctrl2 c'.ctrl2 ≤ δ →
      pdist c.end_ c'.end_ ≤ δ → c.isAPoint tol = true → c'.isAPoint (tol + 2 * δ) = true) := by
  have key : ∀ {a b a' b' : P}, pdist a a' ≤ δ → pdist b b' ≤ δ → pdist a b ^ 2 ≤ tol * tol →
      pdist a' b' ^ 2 ≤ (tol + 2 * δ) * (tol + 2 * δ) := by
    intro a b a' b' h1 h2 h3
    have h4 : pdist a b ≤ tol := by
      rw [← sq] at h3
      exact (abs_le_of_sq_le_sq' h3 htol).2
    have h5 : pdist a' b' ≤ tol + 2 * δ := by
      have t1 := pdist_triangle a' a b'
      have t2 := pdist_triangle a b b'
      rw [pdist_comm a' a] at t1
      linarith
    rw [sq]
    exact mul_le_mul h5 h5 (pdist_nonneg _ _) ((pdist_nonneg _ _).trans h5)
  constructor
  · intro h1 h2 h3 h
    unfold QuadraticBezier.isAPoint at h ⊢
    rw [squaredLength_sub, squaredLength_sub] at h ⊢
    simp only [le_real, Bool.and_eq_true, decide_eq_true_eq] at h ⊢
    exact ⟨key h1 h3 h.1, key h1 h2 h.2⟩
  · intro h1 h2 h3 h4 h
    unfold CubicBezier.isAPoint at h ⊢
    rw [squaredLength_sub, squaredLength_sub, squaredLength_sub] at h ⊢
    simp only [le_real, Bool.and_eq_true, decide_eq_true_eq] at h ⊢
    exact ⟨⟨key h1 h4 h.1.1, key h1 h2 h.1.2⟩, key h4 h3 h.2⟩

end Stroke
