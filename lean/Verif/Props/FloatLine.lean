import Verif.Props.FloatDistance
import Verif.Props.AnyArithmetic

/-!
# Flatness tests and distances to line segments in floating point (C89)

`LineSegment::distance_to_point` in floating point never falls below the true distance by more
than rounding errors, hence `is_linear` and `is_a_point` stay sound; and it is accurate for points
that project before the end of the segment.
-/

set_option linter.unusedSectionVars false

namespace Stroke

open Fl

variable {F : FloatFormat} {n : ℕ}

/-- The segment with the same coordinates as real numbers. -/
noncomputable def LineSegment.real (l : LineSegment (PointN (Fl F) n)) :
    LineSegment (PointN ℝ n) := ⟨l.start.real, l.end_.real⟩

/-- Rounding error of one coordinate of a point of a segment. -/
noncomputable def lineTiny (F : FloatFormat) (M : ℝ) : ℝ := 6 * F.u * M + 4 * F.eta

theorem lineTiny_nonneg {M : ℝ} (hM : 0 ≤ M) : 0 ≤ lineTiny F M := by
  have := F.u_nonneg
  have := F.eta_nonneg
  unfold lineTiny
  positivity

/-- Whatever the scalar product and the squared length are, the clamped parameter is a number in
[0, 1]. -/
theorem clamped_param (x : Fl F) :
    ∃ r h, (if Scalar.lt (if Scalar.lt x (lit 1) then x else lit 0 : Fl F) (lit 0) then lit 0
      else (if Scalar.lt x (lit 1) then x else lit 0) : Fl F) = fin r h ∧ 0 ≤ r ∧ r ≤ 1 := by
  rw [lit_zero, lit_one]
  cases x with
  | nan => exact ⟨0, F.zero_ok, by simp [lt_fin], le_rfl, zero_le_one⟩
  | inf b =>
    refine ⟨0, F.zero_ok, ?_, le_rfl, zero_le_one⟩
    cases b
    · have : Scalar.lt (inf false : Fl F) (fin 1 F.one_ok) = false := rfl
      rw [this]; simp
    · have h1 : Scalar.lt (inf true : Fl F) (fin 1 F.one_ok) = true := rfl
      have h2 : Scalar.lt (inf true : Fl F) (fin 0 F.zero_ok) = true := rfl
      rw [h1, if_pos rfl, h2, if_pos rfl]
  | fin r hr =>
    by_cases h1 : r < 1
    · by_cases h0 : r < 0
      · exact ⟨0, F.zero_ok, by simp [lt_fin, h1, h0], le_rfl, zero_le_one⟩
      · exact ⟨r, hr, by simp [lt_fin, h1, h0], not_lt.1 h0, h1.le⟩
    · exact ⟨0, F.zero_ok, by simp [lt_fin, h1], le_rfl, zero_le_one⟩

/-- The two branches of `distance_to_point` of a segment: the result is the computed distance to
the start or to a computed point of the segment. -/
theorem line_branches (l : LineSegment (PointN (Fl F) n)) (p : PointN (Fl F) n) :
    l.distanceToPoint p = some (Scalar.sqrt (Point.squaredLength (l.start - p) : Fl F)) ∨
    ∃ t ht, 0 ≤ t ∧ t ≤ 1 ∧ l.distanceToPoint p
      = some (Scalar.sqrt (Point.squaredLength (p - l.eval (fin t ht)) : Fl F)) := by
  unfold LineSegment.distanceToPoint
  simp only
  split_ifs
  · exact Or.inl rfl
  · right
    have hdot : (LineSegment.dotLoop (p - l.start) (l.end_ - l.start) : Option (Fl F)).isSome := by
      unfold LineSegment.dotLoop
      apply forRange_isSome
      intro i s _ hi
      rw [iter_length_pn] at hi
      rw [axis_some_pn _ hi, axis_some_pn _ hi]
      rfl
    obtain ⟨dot, hdot⟩ := Option.isSome_iff_exists.1 hdot
    obtain ⟨t, ht, et, t0, t1⟩ := clamped_param
      (dot / (Point.squaredLength (l.end_ - l.start) : Fl F))
    refine ⟨t, ht, t0, t1, ?_⟩
    rw [hdot]
    simp only [Option.bind_eq_bind, Option.bind_some, Option.pure_def]
    rw [et]
    rfl

theorem pow_bound (hu : F.u ≤ 1 / 1024) (m : ℕ) : (1 + F.u) ^ m * (1 - m * F.u) ≤ 1 := by
  have u0 := F.u_nonneg
  have h1 : (1 : ℝ) - m * F.u ≤ (1 - F.u) ^ m := by
    have := one_add_mul_le_pow (a := -F.u) (by linarith) m
    rw [← sub_eq_add_neg] at this
    linarith
  calc (1 + F.u) ^ m * (1 - m * F.u) ≤ (1 + F.u) ^ m * (1 - F.u) ^ m :=
        mul_le_mul_of_nonneg_left h1 (by positivity)
    _ = (1 - F.u ^ 2) ^ m := by rw [← mul_pow]; ring
    _ ≤ 1 := pow_le_one₀ (by nlinarith) (by nlinarith)

/-- Inverting the relative error of a computed distance. -/
theorem invert_error {g d x w : ℝ} {m : ℕ} (hu : F.u ≤ 1 / 1024) (hg : g = (1 + F.u) ^ m)
    (hm : m * F.u ≤ 1 / 4) (hx : 0 ≤ x) (h : |d - x| ≤ (g - 1) * x + w) :
    x ≤ (1 + 2 * m * F.u) * (d + w) := by
  have u0 := F.u_nonneg
  have hmu : 0 ≤ m * F.u := by positivity
  have hb : g * (1 - m * F.u) ≤ 1 := hg ▸ pow_bound hu m
  set q := m * F.u with hq
  rw [show 2 * m * F.u = 2 * q by rw [hq]; ring]
  have h1 : 1 - 2 * q ≤ (2 - g) * (1 - q) := by nlinarith
  have h2 : 1 - q ≤ (1 + 2 * q) * (2 - g) * (1 - q) := by nlinarith
  have h3 : 1 ≤ (1 + 2 * q) * (2 - g) := by
    by_contra hc
    push Not at hc
    have : (1 + 2 * q) * (2 - g) * (1 - q) < 1 * (1 - q) :=
      mul_lt_mul_of_pos_right hc (by linarith)
    linarith
  have h4 : (2 - g) * x ≤ d + w := by linarith [neg_abs_le (d - x)]
  have h5 : (1 + 2 * q) * ((2 - g) * x) ≤ (1 + 2 * q) * (d + w) :=
    mul_le_mul_of_nonneg_left h4 (by linarith)
  nlinarith

/-- The exact point of the segment next to a computed one. -/
theorem line_eval_near (l : LineSegment (PointN (Fl F) n)) {t M : ℝ} (hM : 0 ≤ M)
    (ht : t ∈ F.grid ∧ |t| ≤ F.max) (t0 : 0 ≤ t) (t1 : t ≤ 1)
    (hu : F.u ≤ 1 / 1024) (he : F.eta ≤ 1 / 1024)
    (hs : BoundedBy M l.start) (hd : BoundedBy M l.end_) (hmax : 5 / 2 * M + 1 ≤ F.max) :
    pdist (l.real.eval t) (l.eval (fin t ht)).real ≤ Real.sqrt n * lineTiny F M := by
  rw [pdist_vec, ← norm_vec_const _ (lineTiny_nonneg hM)]
  apply norm_vec_mono
  intro i
  have := (C67_line_eval l ht t0 t1 hu he hs hd hmax i).2
  rw [abs_sub_comm]
  unfold lineTiny
  refine le_trans (le_of_eq ?_) this
  congr 1
  show ((l.eval (fin t ht)).coords i).toReal - ((l.start.coords i).toReal
    + ((l.end_.coords i).toReal - (l.start.coords i).toReal) * t) = _
  ring

/-- **C89**, `LineSegment::distance_to_point` is never too small: if the result is finite, it
equals, up to rounding, the distance to a point of the segment. -/
theorem C89_line_sound (l : LineSegment (PointN (Fl F) n)) (p : PointN (Fl F) n) {M : ℝ}
    (hM : 0 ≤ M) (hu : F.u ≤ 1 / 1024) (he : F.eta ≤ 1 / 1024)
    (hs : BoundedBy M l.start) (hd : BoundedBy M l.end_) (hmax : 5 / 2 * M + 1 ≤ F.max)
    (hn : (n + 3 : ℕ) * F.u ≤ 1 / 4) {d : Fl F} (h : l.distanceToPoint p = some d)
    (hfin : d.IsFinite) :
    0 ≤ d.toReal ∧ NearSegment l.start.real l.end_.real p.real
      ((1 + 2 * (n + 3 : ℕ) * F.u) * (d.toReal + distTiny F n)
        + Real.sqrt n * lineTiny F M) := by
  have hsq : ∀ x : Fl F, (Scalar.sqrt x).IsFinite → x.IsFinite := by
    intro x hx
    cases x with
    | nan => exact hx
    | inf b => cases b <;> exact hx
    | fin r hr => trivial
  have hnear : ∀ (s : ℝ) (x : ℝ), 0 ≤ s → s ≤ 1 → pdist (l.real.eval s) p.real ≤ x →
      NearSegment l.start.real l.end_.real p.real x := by
    intro s x s0 s1 hx
    refine ⟨_, ⟨s, s0, s1, rfl⟩, le_trans (le_of_eq ?_) hx⟩
    unfold pdist
    congr 1
    apply Finset.sum_congr rfl
    intro i _
    rw [show coord (l.real.eval s) i = (1 - s) * coord l.start.real i + s * coord l.end_.real i from
      C05_eval l.real s i]
  have hE := lineTiny_nonneg (F := F) hM
  rcases line_branches l p with hb | ⟨t, ht, t0, t1, hb⟩
  · rw [hb] at h
    obtain rfl := Option.some.inj h
    obtain ⟨_, _, h0, herr⟩ := C88_point_distance l.start p (hsq _ hfin)
    refine ⟨h0, hnear 0 _ le_rfl zero_le_one ?_⟩
    have := invert_error hu rfl hn (pdist_nonneg _ _) herr
    have e0 : l.real.eval (0 : ℝ) = l.start.real :=
      (C05_endpoints l.real).1
    rw [e0]
    have : 0 ≤ Real.sqrt n * lineTiny F M := by positivity
    linarith
  · rw [hb] at h
    obtain rfl := Option.some.inj h
    obtain ⟨_, _, h0, herr⟩ := C88_point_distance p (l.eval (fin t ht)) (hsq _ hfin)
    refine ⟨h0, hnear t _ t0 t1 ?_⟩
    have h1 := invert_error hu rfl hn (pdist_nonneg _ _) herr
    have h2 := line_eval_near l hM ht t0 t1 hu he hs hd hmax
    have h3 := pdist_triangle (l.real.eval t) (l.eval (fin t ht)).real p.real
    rw [pdist_comm (l.eval (fin t ht)).real] at h3
    linarith

/-! ### `is_linear` -/

theorem nearSegment_quadratic (q : QuadraticBezier (PointN ℝ n)) {tol : ℝ}
    (h : NearSegment q.start q.end_ q.ctrl tol) (t : ℝ) (h0 : 0 ≤ t) (h1 : t ≤ 1) :
    NearSegment q.start q.end_ (q.eval t) tol := by
  obtain ⟨d, hmem, hd'⟩ := h
  rw [segmentDistances_eq] at hmem
  obtain ⟨s, hs0, hs1, rfl⟩ := hmem
  have h1' : 0 ≤ 1 - t := by linarith
  refine ⟨‖toE q.start + (2 * t * (1 - t) * s + t ^ 2) • (toE q.end_ - toE q.start)
      - toE (q.eval t)‖, ?_, ?_⟩
  · rw [segmentDistances_eq]
    refine ⟨_, by positivity, ?_, rfl⟩
    have : 2 * t * (1 - t) * s ≤ 2 * t * (1 - t) := mul_le_of_le_one_right (by positivity) hs1
    nlinarith
  · have e : toE q.start + (2 * t * (1 - t) * s + t ^ 2) • (toE q.end_ - toE q.start)
        - toE (q.eval t)
        = (2 * t * (1 - t)) • (toE q.start + s • (toE q.end_ - toE q.start) - toE q.ctrl) := by
      ext i; simp [C10_eval]; ring
    rw [e, norm_smul, Real.norm_eq_abs, abs_of_nonneg (by positivity)]
    have hw : 2 * t * (1 - t) ≤ 1 := by nlinarith [sq_nonneg (2 * t - 1)]
    exact (mul_le_of_le_one_left (norm_nonneg _) hw).trans hd'

theorem nearSegment_cubic (c : CubicBezier (PointN ℝ n)) {tol : ℝ}
    (hc1 : NearSegment c.start c.end_ c.ctrl1 tol) (hc2 : NearSegment c.start c.end_ c.ctrl2 tol)
    (t : ℝ) (h0 : 0 ≤ t) (h1 : t ≤ 1) :
    NearSegment c.start c.end_ (c.eval t) tol := by
  obtain ⟨d1, hm1, ht1⟩ := hc1
  obtain ⟨d2, hm2, ht2⟩ := hc2
  rw [segmentDistances_eq] at hm1 hm2
  obtain ⟨s1, hs0, hs1, rfl⟩ := hm1
  obtain ⟨s2, hs0', hs1', rfl⟩ := hm2
  have h1' : 0 ≤ 1 - t := by linarith
  have w1 : 0 ≤ 3 * t * (1 - t) ^ 2 := by positivity
  have w2 : 0 ≤ 3 * t ^ 2 * (1 - t) := by positivity
  have hsum : 3 * t * (1 - t) ^ 2 + 3 * t ^ 2 * (1 - t) + t ^ 3 ≤ 1 := by
    have := pow_nonneg h1' 3; nlinarith
  refine ⟨‖toE c.start + (3 * t * (1 - t) ^ 2 * s1 + 3 * t ^ 2 * (1 - t) * s2 + t ^ 3)
      • (toE c.end_ - toE c.start) - toE (c.eval t)‖, ?_, ?_⟩
  · rw [segmentDistances_eq]
    refine ⟨_, by positivity, ?_, rfl⟩
    have a := mul_le_of_le_one_right w1 hs1
    have b := mul_le_of_le_one_right w2 hs1'
    linarith
  · have e : toE c.start + (3 * t * (1 - t) ^ 2 * s1 + 3 * t ^ 2 * (1 - t) * s2 + t ^ 3)
          • (toE c.end_ - toE c.start) - toE (c.eval t)
        = (3 * t * (1 - t) ^ 2) • (toE c.start + s1 • (toE c.end_ - toE c.start) - toE c.ctrl1)
        + (3 * t ^ 2 * (1 - t)) • (toE c.start + s2 • (toE c.end_ - toE c.start) - toE c.ctrl2) := by
      ext i; simp [C20_eval]; ring
    rw [e]
    refine (norm_add_le _ _).trans ?_
    rw [norm_smul, norm_smul, Real.norm_eq_abs, Real.norm_eq_abs, abs_of_nonneg w1,
      abs_of_nonneg w2]
    have a := mul_le_mul_of_nonneg_left ht1 w1
    have b := mul_le_mul_of_nonneg_left ht2 w2
    have htol : 0 ≤ tol := (norm_nonneg _).trans ht1
    have : (3 * t * (1 - t) ^ 2 + 3 * t ^ 2 * (1 - t)) * tol ≤ 1 * tol :=
      mul_le_mul_of_nonneg_right (by have := pow_nonneg h0 3; linarith) htol
    linarith

/-- A distance that passes a comparison with a finite tolerance is finite, and compares as
numbers do. -/
theorem le_finite_of_sqrt {x tol : Fl F} (htol : tol.IsFinite)
    (hx : ∃ y : Fl F, x = Scalar.sqrt y) (h : Scalar.le x tol = true) :
    x.IsFinite ∧ x.toReal ≤ tol.toReal := by
  obtain ⟨r, hr, rfl⟩ := isFinite_iff.1 htol
  cases x with
  | nan => simp at h
  | inf b =>
    exfalso
    cases b
    · have : Scalar.le (inf false : Fl F) (fin r hr) = false := rfl
      rw [this] at h
      exact Bool.noConfusion h
    · obtain ⟨y, hy⟩ := hx
      cases y with
      | nan =>
        have hy' : (inf true : Fl F) = nan := hy
        cases hy'
      | inf b =>
        cases b
        · have hy' : (inf true : Fl F) = inf false := hy
          cases hy'
        · have hy' : (inf true : Fl F) = nan := hy
          cases hy'
      | fin s hs =>
        have hy' : (inf true : Fl F) = if s < 0 then nan else F.round (Real.sqrt s) := hy
        split_ifs at hy'
        unfold FloatFormat.round at hy'
        split_ifs at hy'
        have := inf.inj hy'
        have h2 := Real.sqrt_nonneg s
        simp at this
        linarith
  | fin a ha =>
    rw [le_fin] at h
    exact ⟨trivial, h⟩

/-- The tolerance that is guaranteed when the flatness test passes with `tol`. -/
noncomputable def flatTol (F : FloatFormat) (n : ℕ) (M tol : ℝ) : ℝ :=
  (1 + 2 * (n + 3 : ℕ) * F.u) * (tol + distTiny F n) + Real.sqrt n * lineTiny F M

theorem line_within (l : LineSegment (PointN (Fl F) n)) (p : PointN (Fl F) n) {M : ℝ}
    (hM : 0 ≤ M) (hu : F.u ≤ 1 / 1024) (he : F.eta ≤ 1 / 1024)
    (hs : BoundedBy M l.start) (hd : BoundedBy M l.end_) (hmax : 5 / 2 * M + 1 ≤ F.max)
    (hn : (n + 3 : ℕ) * F.u ≤ 1 / 4) {d tol : Fl F} (h : l.distanceToPoint p = some d)
    (htol : tol.IsFinite) (hle : Scalar.le d tol = true) :
    NearSegment l.start.real l.end_.real p.real (flatTol F n M tol.toReal) := by
  have hx : ∃ y : Fl F, d = Scalar.sqrt y := by
    rcases line_branches l p with hb | ⟨t, ht, _, _, hb⟩
    · rw [hb] at h; exact ⟨_, (Option.some.inj h).symm⟩
    · rw [hb] at h; exact ⟨_, (Option.some.inj h).symm⟩
  obtain ⟨hfin, hle'⟩ := le_finite_of_sqrt htol hx hle
  obtain ⟨_, e, he1, he2⟩ := C89_line_sound l p hM hu he hs hd hmax hn h hfin
  refine ⟨e, he1, he2.trans ?_⟩
  unfold flatTol
  have u0 := F.u_nonneg
  have : (1 + 2 * (n + 3 : ℕ) * F.u) * (d.toReal + distTiny F n)
      ≤ (1 + 2 * (n + 3 : ℕ) * F.u) * (tol.toReal + distTiny F n) :=
    mul_le_mul_of_nonneg_left (by linarith) (by positivity)
  linarith

/-- **C89**, `QuadraticBezier::is_linear` is sound in floating point. -/
theorem C89_quadratic_is_linear (q : QuadraticBezier (PointN (Fl F) n)) (tol : Fl F) {M : ℝ}
    (hM : 0 ≤ M) (hu : F.u ≤ 1 / 1024) (he : F.eta ≤ 1 / 1024)
    (hs : BoundedBy M q.start) (hd : BoundedBy M q.end_) (hmax : 5 / 2 * M + 1 ≤ F.max)
    (hn : (n + 3 : ℕ) * F.u ≤ 1 / 4) (htol : tol.IsFinite) (h : q.isLinear tol = some true)
    (t : ℝ) (h0 : 0 ≤ t) (h1 : t ≤ 1) :
    NearSegment q.start.real q.end_.real (q.real.eval t) (flatTol F n M tol.toReal) := by
  unfold QuadraticBezier.isLinear QuadraticBezier.arePointsColinear at h
  split_ifs at h
  · exact absurd (Option.some.inj h) (by simp)
  obtain ⟨d, hd1⟩ := Option.isSome_iff_exists.1 (line_distance_isSome q.baseline q.ctrl)
  simp only [hd1, Option.bind_eq_bind, Option.bind_some, Option.pure_def, Option.some.injEq] at h
  exact nearSegment_quadratic q.real
    (line_within q.baseline q.ctrl hM hu he hs hd hmax hn hd1 htol h) t h0 h1

/-- **C89**, `CubicBezier::is_linear` is sound in floating point. -/
theorem C89_cubic_is_linear (c : CubicBezier (PointN (Fl F) n)) (tol : Fl F) {M : ℝ}
    (hM : 0 ≤ M) (hu : F.u ≤ 1 / 1024) (he : F.eta ≤ 1 / 1024)
    (hs : BoundedBy M c.start) (hd : BoundedBy M c.end_) (hmax : 5 / 2 * M + 1 ≤ F.max)
    (hn : (n + 3 : ℕ) * F.u ≤ 1 / 4) (htol : tol.IsFinite) (h : c.isLinear tol = some true)
    (t : ℝ) (h0 : 0 ≤ t) (h1 : t ≤ 1) :
    NearSegment c.start.real c.end_.real (c.real.eval t) (flatTol F n M tol.toReal) := by
  unfold CubicBezier.isLinear CubicBezier.arePointsColinear at h
  split_ifs at h
  · exact absurd (Option.some.inj h) (by simp)
  obtain ⟨d1, hd1⟩ := Option.isSome_iff_exists.1 (line_distance_isSome c.baseline c.ctrl1)
  obtain ⟨d2, hd2⟩ := Option.isSome_iff_exists.1 (line_distance_isSome c.baseline c.ctrl2)
  simp only [hd1, hd2, Option.bind_eq_bind, Option.bind_some, Option.pure_def] at h
  split_ifs at h with hle
  · exact nearSegment_cubic c.real
      (line_within c.baseline c.ctrl1 hM hu he hs hd hmax hn hd1 htol hle)
      (line_within c.baseline c.ctrl2 hM hu he hs hd hmax hn hd2 htol (Option.some.inj h)) t h0 h1
  · exact absurd (Option.some.inj h) (by simp)

/-! ### `is_a_point` -/

/-- The radius that is guaranteed when `is_a_point(tol)` passes. -/
noncomputable def pointTol (F : FloatFormat) (n : ℕ) (tol : ℝ) : ℝ :=
  (1 + 2 * (n + 3 : ℕ) * F.u) * ((1 + F.u) ^ 2 * |tol| + (1 + F.u) * Real.sqrt F.eta + F.eta
    + distTiny F n)

theorem close_of_test (p q : PointN (Fl F) n) (tol : Fl F) (hu : F.u ≤ 1 / 1024)
    (hn : (n + 3 : ℕ) * F.u ≤ 1 / 4) (htol : (tol * tol).IsFinite)
    (h : Scalar.le (Point.squaredLength (p - q) : Fl F) (tol * tol) = true) :
    pdist p.real q.real ≤ pointTol F n tol.toReal := by
  have u0 := F.u_nonneg
  have e0 := F.eta_nonneg
  have htf := (Reflects.finite.mul _ _ htol).1
  obtain ⟨b, hb, eb⟩ := isFinite_iff.1 htf
  rw [eb] at htol h ⊢
  rw [fin_mul] at htol h
  have hr : |F.rnd (b * b)| ≤ F.max := by
    by_contra hc
    have : F.round (b * b) = inf (decide (b * b < 0)) := by
      unfold FloatFormat.round; rw [dif_neg hc]
    rw [this] at htol
    exact htol
  rw [F.round_of_rnd_le hr] at h
  have hsf : (Point.squaredLength (p - q) : Fl F).IsFinite := by
    rcases squaredLength_cases (p - q) with h1 | h1 | h1
    · rw [h1] at h; simp at h
    · rw [h1] at h
      have : Scalar.le (inf false : Fl F) (fin (F.rnd (b * b)) ⟨F.rnd_mem _, hr⟩) = false := rfl
      rw [this] at h
      exact Bool.noConfusion h
    · exact h1
  obtain ⟨_, _, _, herr⟩ := C88_point_distance p q hsf
  have h1 := invert_error hu rfl hn (pdist_nonneg _ _) herr
  refine h1.trans ?_
  unfold pointTol
  apply mul_le_mul_of_nonneg_left _ (by positivity)
  obtain ⟨s, hs, es⟩ := isFinite_iff.1 hsf
  obtain ⟨_, s0, _⟩ := C88_squared_length (p - q) (Or.inl hsf)
  rw [es, toReal_fin] at s0
  rw [es, le_fin] at h
  have h2 : s ≤ F.rnd (b * b) := h
  have h3 := F.rnd_err (b * b)
  rw [abs_of_nonneg (mul_self_nonneg b)] at h3
  have h4 : s ≤ (1 + F.u) * b ^ 2 + F.eta := by
    have := le_abs_self (F.rnd (b * b) - b * b)
    nlinarith
  have h5 : Real.sqrt s ≤ (1 + F.u) * |b| + Real.sqrt F.eta := by
    apply Real.sqrt_le_iff.2
    refine ⟨by positivity, h4.trans ?_⟩
    have a1 := Real.sq_sqrt e0
    have a2 : 0 ≤ (1 + F.u) * |b| * Real.sqrt F.eta := by positivity
    have a3 : (1 + F.u) * b ^ 2 ≤ ((1 + F.u) * |b|) ^ 2 := by
      rw [mul_pow, sq_abs]
      exact mul_le_mul_of_nonneg_right (by nlinarith) (sq_nonneg b)
    nlinarith
  have hsmax : |Real.sqrt s| ≤ F.max := by
    rw [abs_of_nonneg (Real.sqrt_nonneg s)]
    have h1 : s ≤ F.max := (le_abs_self s).trans hs.2
    have h2 := F.max_ge
    apply Real.sqrt_le_iff.2
    exact ⟨by linarith, by nlinarith⟩
  have er : (Scalar.sqrt (fin s hs : Fl F))
      = fin (F.rnd (Real.sqrt s)) ⟨F.rnd_mem _, F.abs_rnd_le F.max_mem hsmax⟩ := by
    show (if s < 0 then nan else F.round (Real.sqrt s)) = _
    rw [if_neg (not_lt.2 s0), F.round_of_le hsmax]
  rw [es, er, toReal_fin, toReal_fin]
  have h6 := F.rnd_err (Real.sqrt s)
  rw [abs_of_nonneg (Real.sqrt_nonneg s)] at h6
  have h7 := le_abs_self (F.rnd (Real.sqrt s) - Real.sqrt s)
  have h8 : (1 + F.u) * Real.sqrt s ≤ (1 + F.u) * ((1 + F.u) * |b| + Real.sqrt F.eta) :=
    mul_le_mul_of_nonneg_left h5 (by linarith)
  nlinarith

theorem exact_test {p q : PointN ℝ n} {r : ℝ} (h : pdist p q ≤ r) :
    Scalar.le (Point.squaredLength (p - q) : ℝ) (r * r) = true := by
  rw [squaredLength_sub, ← sq]
  simp only [le_real, decide_eq_true_eq]
  exact pow_le_pow_left₀ (pdist_nonneg _ _) h 2

/-- **C89**, `QuadraticBezier::is_a_point` is sound in floating point. -/
theorem C89_quadratic_is_a_point (q : QuadraticBezier (PointN (Fl F) n)) (tol : Fl F)
    (hu : F.u ≤ 1 / 1024) (hn : (n + 3 : ℕ) * F.u ≤ 1 / 4) (htol : (tol * tol).IsFinite)
    (h : q.isAPoint tol = true) (t : ℝ) (h0 : 0 ≤ t) (h1 : t ≤ 1) :
    pdist (q.real.eval t) q.start.real ≤ pointTol F n tol.toReal := by
  unfold QuadraticBezier.isAPoint at h
  rw [Bool.and_eq_true] at h
  have a1 := close_of_test _ _ _ hu hn htol h.1
  have a2 := close_of_test _ _ _ hu hn htol h.2
  have := C19_is_a_point q.real (pointTol F n tol.toReal) (by
    unfold QuadraticBezier.isAPoint
    rw [Bool.and_eq_true]
    exact ⟨exact_test a1, exact_test a2⟩) t h0 h1
  rw [abs_of_nonneg ((pdist_nonneg _ _).trans a1)] at this
  exact this

/-- **C89**, `CubicBezier::is_a_point` is sound in floating point. -/
theorem C89_cubic_is_a_point (c : CubicBezier (PointN (Fl F) n)) (tol : Fl F)
    (hu : F.u ≤ 1 / 1024) (hn : (n + 3 : ℕ) * F.u ≤ 1 / 4) (htol : (tol * tol).IsFinite)
    (h : c.isAPoint tol = true) (t : ℝ) (h0 : 0 ≤ t) (h1 : t ≤ 1) :
    pdist (c.real.eval t) c.start.real ≤ Real.sqrt 2 * pointTol F n tol.toReal := by
  unfold CubicBezier.isAPoint at h
  rw [Bool.and_eq_true, Bool.and_eq_true] at h
  have a1 := close_of_test _ _ _ hu hn htol h.1.1
  have a2 := close_of_test _ _ _ hu hn htol h.1.2
  have a3 := close_of_test _ _ _ hu hn htol h.2
  have := C29_is_a_point_sharp c.real (pointTol F n tol.toReal) (by
    unfold CubicBezier.isAPoint
    rw [Bool.and_eq_true, Bool.and_eq_true]
    exact ⟨⟨exact_test a1, exact_test a2⟩, exact_test a3⟩) t h0 h1
  rw [abs_of_nonneg ((pdist_nonneg _ _).trans a1)] at this
  exact this

/-! ### Scalar products -/

theorem dot_step {s z S A : ℝ} {j : ℕ} (hS : |S| ≤ A)
    (hs : |s - S| ≤ ((1 + F.u) ^ (j + 1) - 1) * A + 2 * j * (1 + F.u) ^ j * F.eta) :
    |F.rnd (s + F.rnd z) - (S + z)|
      ≤ ((1 + F.u) ^ (j + 1 + 1) - 1) * (A + |z|)
        + 2 * (j + 1 : ℕ) * (1 + F.u) ^ (j + 1) * F.eta := by
  have u0 := F.u_nonneg
  have e0 := F.eta_nonneg
  have z0 := abs_nonneg z
  have g := one_le_g (F := F) j
  have h1 := F.rnd_err z
  have h2 := F.rnd_err (s + F.rnd z)
  have h3 := abs_add_le (F.rnd (s + F.rnd z) - (s + F.rnd z)) ((s - S) + (F.rnd z - z))
  have h4 := abs_add_le (s - S) (F.rnd z - z)
  have h5 := abs_add_le (S + z) ((s - S) + (F.rnd z - z))
  rw [show S + z + ((s - S) + (F.rnd z - z)) = s + F.rnd z by ring] at h5
  have h5' := abs_add_le S z
  rw [show F.rnd (s + F.rnd z) - (s + F.rnd z) + ((s - S) + (F.rnd z - z))
    = F.rnd (s + F.rnd z) - (S + z) by ring] at h3
  have h6 : F.u * |s + F.rnd z| ≤ F.u * (A + |z| + (|s - S| + |F.rnd z - z|)) :=
    mul_le_mul_of_nonneg_left (by linarith) u0
  have h7 : (1 + F.u) * (|s - S| + |F.rnd z - z|) ≤ (1 + F.u)
      * (((1 + F.u) ^ (j + 1) - 1) * A + 2 * j * (1 + F.u) ^ j * F.eta + (F.u * |z| + F.eta)) :=
    mul_le_mul_of_nonneg_left (by linarith) (by linarith)
  set G := (1 + F.u) ^ j with hG
  have e1 : (1 + F.u) ^ (j + 1) = G * (1 + F.u) := pow_succ _ _
  have e2 : (1 + F.u) ^ (j + 1 + 1) = G * (1 + F.u) * (1 + F.u) := by rw [pow_succ, e1]
  rw [e1] at h7
  rw [e1, e2]
  push_cast
  have q1 : 0 ≤ (G - 1) * (1 + F.u) ^ 2 * |z| :=
    mul_nonneg (mul_nonneg (by linarith) (by positivity)) z0
  have q2 : 0 ≤ (G - 1) * (1 + F.u) * F.eta :=
    mul_nonneg (mul_nonneg (by linarith) (by linarith)) e0
  have q3 : 0 ≤ F.u * F.eta := mul_nonneg u0 e0
  nlinarith

/-- The scalar product computed by `distance_to_point` of a segment. -/
theorem dot_error (v w : PointN (Fl F) n) (hv : ∀ i, (v.coords i).IsFinite)
    (hw : ∀ i, (w.coords i).IsFinite)
    (hmax : (1 + F.u) ^ (n + 1) * ∑ i, |(v.coords i).toReal * (w.coords i).toReal|
      + 2 * n * (1 + F.u) ^ n * F.eta ≤ F.max) :
    ∃ r h, LineSegment.dotLoop v w = some (fin r h : Fl F) ∧
      |r - ∑ i, (v.coords i).toReal * (w.coords i).toReal|
        ≤ ((1 + F.u) ^ (n + 1) - 1) * ∑ i, |(v.coords i).toReal * (w.coords i).toReal|
          + 2 * n * (1 + F.u) ^ n * F.eta := by
  have u0 := F.u_nonneg
  have e0 := F.eta_nonneg
  set z : ℕ → ℝ := fun i => if h : i < n then (v.coords ⟨i, h⟩).toReal * (w.coords ⟨i, h⟩).toReal
    else 0 with hz
  have hz1 : ∀ i : Fin n, (v.coords i).toReal * (w.coords i).toReal = z i := fun i => by
    simp [hz]
  simp only [hz1] at hmax ⊢
  rw [Fin.sum_univ_eq_sum_range (fun i => |z i|)] at hmax
  rw [Fin.sum_univ_eq_sum_range (fun i => |z i|), Fin.sum_univ_eq_sum_range (fun i => z i)]
  have hA : ∀ k, 0 ≤ ∑ i ∈ Finset.range k, |z i| := fun k =>
    Finset.sum_nonneg fun i _ => abs_nonneg _
  have hAm : ∀ k, k ≤ n → ∑ i ∈ Finset.range k, |z i| ≤ ∑ i ∈ Finset.range n, |z i| := fun k hk =>
    Finset.sum_le_sum_of_subset_of_nonneg (Finset.range_subset_range.2 hk) fun i _ _ => abs_nonneg _
  have hbig : ∀ k, k ≤ n → (1 + F.u) ^ (k + 1) * ∑ i ∈ Finset.range k, |z i|
      + 2 * k * (1 + F.u) ^ k * F.eta ≤ F.max := by
    intro k hk
    refine le_trans ?_ hmax
    apply add_le_add
    · exact mul_le_mul (pow_le_pow_right₀ (by linarith) (by omega)) (hAm k hk) (hA k) (by positivity)
    · apply mul_le_mul_of_nonneg_right _ e0
      apply mul_le_mul _ (pow_le_pow_right₀ (by linarith) hk) (by positivity) (by positivity)
      apply mul_le_mul_of_nonneg_left _ (by norm_num)
      exact_mod_cast hk
  have := forRange_inv (m := Option)
      (fun k (s : Fl F) => ∃ r h, s = fin r h ∧ |r - ∑ i ∈ Finset.range k, z i|
        ≤ ((1 + F.u) ^ (k + 1) - 1) * ∑ i ∈ Finset.range k, |z i| + 2 * k * (1 + F.u) ^ k * F.eta)
      (lo := 0) (hi := n) (s := (lit 0 : Fl F))
      (body := fun i dot => do
        let a ← Point.axis v i
        let b ← Point.axis w i
        pure (dot + a * b))
      (Nat.zero_le n) ⟨0, F.zero_ok, lit_zero, by simp⟩ (by
        rintro k s _ hk ⟨r, hr, rfl, herr⟩
        obtain ⟨x, hx, ex⟩ := isFinite_iff.1 (hv ⟨k, hk⟩)
        obtain ⟨y, hy, ey⟩ := isFinite_iff.1 (hw ⟨k, hk⟩)
        have hzk : z k = x * y := by simp [hz, hk, ex, ey]
        refine ⟨_, by rw [axis_pointN hk, axis_pointN hk]; rfl, ?_⟩
        rw [ex, ey, fin_mul]
        have hS : |∑ i ∈ Finset.range k, z i| ≤ ∑ i ∈ Finset.range k, |z i| :=
          Finset.abs_sum_le_sum_abs _ _
        have hstep := dot_step (z := x * y) hS herr
        have hsum : ∑ i ∈ Finset.range (k + 1), z i = ∑ i ∈ Finset.range k, z i + x * y := by
          rw [Finset.sum_range_succ, hzk]
        have hsum' : ∑ i ∈ Finset.range (k + 1), |z i|
            = ∑ i ∈ Finset.range k, |z i| + |x * y| := by
          rw [Finset.sum_range_succ, hzk]
        have hb := hbig (k + 1) hk
        rw [hsum'] at hb
        have g1 : (1 : ℝ) ≤ (1 + F.u) ^ (k + 1) := one_le_pow₀ (by linarith)
        have a0 := abs_nonneg (x * y)
        have hA' := hA k
        have m1 : |F.rnd (x * y)| ≤ F.max := by
          have a1 := F.rnd_err (x * y)
          have a2 := abs_add_le (x * y) (F.rnd (x * y) - x * y)
          rw [add_sub_cancel] at a2
          have a3 : (1 + F.u) * |x * y| ≤ (1 + F.u) ^ (k + 1 + 1)
              * (∑ i ∈ Finset.range k, |z i| + |x * y|) := by
            have b1 : (1 + F.u) ^ 1 ≤ (1 + F.u) ^ (k + 1 + 1) :=
              pow_le_pow_right₀ (by linarith) (by omega)
            rw [pow_one] at b1
            exact mul_le_mul b1 (by linarith) a0 (by positivity)
          have a4 : F.eta ≤ 2 * (k + 1 : ℕ) * (1 + F.u) ^ (k + 1) * F.eta := by
            have b1 : (1 : ℝ) ≤ (k + 1 : ℕ) := by exact_mod_cast (by omega)
            have b3 : 1 ≤ 2 * (k + 1 : ℕ) * (1 + F.u) ^ (k + 1) := by nlinarith
            nlinarith
          linarith
        rw [F.round_of_rnd_le m1, fin_add]
        have m2 : |F.rnd (r + F.rnd (x * y))| ≤ F.max := by
          have a2 := abs_add_le (∑ i ∈ Finset.range k, z i + x * y)
            (F.rnd (r + F.rnd (x * y)) - (∑ i ∈ Finset.range k, z i + x * y))
          rw [add_sub_cancel] at a2
          have a3 := abs_add_le (∑ i ∈ Finset.range k, z i) (x * y)
          linarith
        refine ⟨_, ⟨F.rnd_mem _, m2⟩, F.round_of_rnd_le m2, ?_⟩
        rw [hsum, hsum']
        exact hstep)
  obtain ⟨s, hs, r, hr, rfl, herr⟩ := this
  refine ⟨r, hr, ?_, herr⟩
  unfold LineSegment.dotLoop
  have hlen : (Point.iter v).length = n := by
    show v.coords.toList.length = n
    simp [Arr.toList]
  rw [hlen]
  exact hs

/-! ### Accuracy of the projection -/

/-- The difference of two bounded points. -/
theorem sub_error (p q : PointN (Fl F) n) {M : ℝ} (hu : F.u ≤ 1 / 1024) (he : F.eta ≤ 1 / 1024)
    (hM : 0 ≤ M) (hp : BoundedBy M p) (hq : BoundedBy M q) (hmax : 5 / 2 * M + 1 ≤ F.max)
    (i : Fin n) :
    ((p - q).coords i).IsFinite ∧ |((p - q).coords i).toReal| ≤ 5 / 2 * M + 1 ∧
    |((p - q).coords i).toReal - ((p.coords i).toReal - (q.coords i).toReal)|
      ≤ F.u * |(p.coords i).toReal - (q.coords i).toReal| + F.eta := by
  have u0 := F.u_nonneg
  have e0 := F.eta_nonneg
  obtain ⟨a, ha, ea⟩ := isFinite_iff.1 (hp i).1
  obtain ⟨b, hb, eb⟩ := isFinite_iff.1 (hq i).1
  have h1 := (hp i).2
  have h2 := (hq i).2
  rw [ea, toReal_fin] at h1
  rw [eb, toReal_fin] at h2
  have h3 := abs_sub a b
  have h4 := F.rnd_err (a - b)
  have h5 := abs_add_le (a - b) (F.rnd (a - b) - (a - b))
  rw [add_sub_cancel] at h5
  have h6 : F.u * |a - b| ≤ 1 / 1024 * (2 * M) :=
    mul_le_mul hu (by linarith) (abs_nonneg _) (by norm_num)
  have h7 : |F.rnd (a - b)| ≤ 5 / 2 * M + 1 := by linarith
  rw [coords_sub, ea, eb, fin_sub, F.round_of_rnd_le (h7.trans hmax)]
  exact ⟨trivial, h7, h4⟩

/-- The same for the norm. -/
theorem sub_norm_error (p q : PointN (Fl F) n) {M : ℝ} (hu : F.u ≤ 1 / 1024)
    (he : F.eta ≤ 1 / 1024)
    (hM : 0 ≤ M) (hp : BoundedBy M p) (hq : BoundedBy M q) (hmax : 5 / 2 * M + 1 ≤ F.max) :
    ‖vec (fun i => ((p - q).coords i).toReal)
        - vec (fun i => (p.coords i).toReal - (q.coords i).toReal)‖
      ≤ F.u * ‖vec (fun i => (p.coords i).toReal - (q.coords i).toReal)‖ + Real.sqrt n * F.eta := by
  have h1 := norm_vec_mono (x := fun i => ((p - q).coords i).toReal
      - ((p.coords i).toReal - (q.coords i).toReal))
    (y := fun i => F.u * |(p.coords i).toReal - (q.coords i).toReal| + F.eta)
    (fun i => (sub_error p q hu he hM hp hq hmax i).2.2)
  have h2 := norm_vec_add (fun i => F.u * |(p.coords i).toReal - (q.coords i).toReal|)
    (fun _ : Fin n => F.eta)
  rw [norm_vec_abs_smul _ F.u_nonneg, norm_vec_const _ F.eta_nonneg] at h2
  exact h1.trans h2

theorem inner_vec (x y : Fin n → ℝ) : inner ℝ (vec x) (vec y) = ∑ i, x i * y i := by
  simp only [vec, PiLp.inner_apply]
  apply Finset.sum_congr rfl
  intro i _
  simp [mul_comm]

theorem sum_abs_le_norm (x y : Fin n → ℝ) : ∑ i, |x i * y i| ≤ ‖vec x‖ * ‖vec y‖ := by
  have h := real_inner_le_norm (vec fun i => |x i|) (vec fun i => |y i|)
  rw [inner_vec] at h
  have e : ∀ z : Fin n → ℝ, ‖vec fun i => |z i|‖ = ‖vec z‖ := fun z => by
    rw [norm_vec, norm_vec]; simp
  rw [e, e] at h
  simpa [abs_mul] using h

/-- Arithmetic of the quotient. -/
theorem quotient_error {dot dh l2 L W V κ : ℝ} (hL : 0 < L) (hV : V ≤ W) (hW : 0 ≤ W)
    (hκ : κ ≤ 1 / 8) (κ0 : 0 ≤ κ) (h1 : |dot| ≤ V * L) (h2 : |dh - dot| ≤ κ * W * L)
    (h3 : |l2 - L ^ 2| ≤ κ * L ^ 2) :
    |dh / l2 - dot / L ^ 2| ≤ 3 * κ * (W / L) ∧ |dh / l2| ≤ 2 * (W / L) := by
  have hL2 : 0 < L ^ 2 := by positivity
  have hl : (1 - κ) * L ^ 2 ≤ l2 := by linarith [neg_abs_le (l2 - L ^ 2)]
  have hl0 : 0 < l2 := lt_of_lt_of_le (by nlinarith) hl
  have hdW : |dot| ≤ W * L := h1.trans (mul_le_mul_of_nonneg_right hV hL.le)
  have hWL : 0 ≤ W * L := by positivity
  have e1 : dh / l2 - dot / L ^ 2 = (dh - dot + dot / L ^ 2 * (L ^ 2 - l2)) / l2 := by
    field_simp
    ring
  have hd : |dot / L ^ 2| * |L ^ 2 - l2| ≤ κ * W * L := by
    rw [abs_div, abs_of_pos hL2, abs_sub_comm, div_mul_eq_mul_div, div_le_iff₀ hL2]
    calc |dot| * |l2 - L ^ 2| ≤ (W * L) * (κ * L ^ 2) :=
          mul_le_mul hdW h3 (abs_nonneg _) hWL
      _ = κ * W * L * L ^ 2 := by ring
  have key : |dh / l2 - dot / L ^ 2| ≤ 3 * κ * (W / L) := by
    rw [e1, abs_div, abs_of_pos hl0, div_le_iff₀ hl0]
    have a1 := abs_add_le (dh - dot) (dot / L ^ 2 * (L ^ 2 - l2))
    rw [abs_mul] at a1
    have a2 : 3 * κ * (W / L) * ((1 - κ) * L ^ 2) ≤ 3 * κ * (W / L) * l2 :=
      mul_le_mul_of_nonneg_left hl (by positivity)
    have a3 : 3 * κ * (W / L) * ((1 - κ) * L ^ 2) = 3 * (1 - κ) * (κ * W * L) := by
      field_simp
    have a4 : 2 * (κ * W * L) ≤ 3 * (1 - κ) * (κ * W * L) :=
      mul_le_mul_of_nonneg_right (by linarith) (by positivity)
    linarith
  refine ⟨key, ?_⟩
  have b1 := abs_add_le (dh / l2 - dot / L ^ 2) (dot / L ^ 2)
  rw [sub_add_cancel] at b1
  have b2 : |dot / L ^ 2| ≤ W / L := by
    rw [abs_div, abs_of_pos hL2, div_le_iff₀ hL2]
    calc |dot| ≤ W * L := hdW
      _ = W / L * L ^ 2 := by field_simp
  have b3 : 0 ≤ W / L := by positivity
  have b4 : 3 * κ * (W / L) ≤ 3 * (1 / 8) * (W / L) :=
    mul_le_mul_of_nonneg_right (by linarith) b3
  linarith

/-- Among the points of the line, the distance grows with the distance from the projection. -/
theorem closest_param {E : Type*} [NormedAddCommGroup E] [InnerProductSpace ℝ E] (v w : E)
    {s t t' : ℝ} (hw : 0 < ‖w‖) (ht' : t' = inner ℝ v w / ‖w‖ ^ 2) (h : |t - t'| ≤ |s - t'|) :
    ‖v - t • w‖ ≤ ‖v - s • w‖ := by
  have e : ∀ r : ℝ, ‖v - r • w‖ ^ 2 = ‖v‖ ^ 2 - t' ^ 2 * ‖w‖ ^ 2 + (r - t') ^ 2 * ‖w‖ ^ 2 := by
    intro r
    have hw2 : ‖w‖ ^ 2 ≠ 0 := by positivity
    have hi : inner ℝ v w = t' * ‖w‖ ^ 2 := by rw [ht']; field_simp
    rw [norm_sub_sq_real, inner_smul_right, hi, norm_smul, mul_pow, Real.norm_eq_abs, sq_abs]
    ring
  have h2 : (t - t') ^ 2 ≤ (s - t') ^ 2 := sq_le_sq.2 h
  have h3 : ‖v - t • w‖ ^ 2 ≤ ‖v - s • w‖ ^ 2 := by
    rw [e, e]
    have := mul_le_mul_of_nonneg_right h2 (sq_nonneg ‖w‖)
    linarith
  exact abs_le_of_sq_le_sq' h3 (norm_nonneg _) |>.2

/-- Small numbers used below. -/
theorem small_pow (hu : F.u ≤ 1 / 1024) {m : ℕ} (hm : m * F.u ≤ 1 / 64) :
    (1 + F.u) ^ m - 1 ≤ 64 / 63 * (m * F.u) ∧ (1 + F.u) ^ m ≤ 64 / 63 := by
  have u0 := F.u_nonneg
  have h := pow_bound hu m
  have hq : 0 ≤ m * F.u := by positivity
  set q := m * F.u
  set g := (1 + F.u) ^ m
  have g0 : 1 ≤ g := one_le_pow₀ (by linarith)
  have h1 : g ≤ 64 / 63 := by nlinarith
  exact ⟨by nlinarith, h1⟩

/-- The arithmetic of the next theorem. -/
theorem dot_numbers {E : Type*} [NormedAddCommGroup E] [InnerProductSpace ℝ E] (x1 x2 y1 y2 : E)
    {u L V W G N T A τ dh l2 : ℝ} (u0 : 0 ≤ u) (hu : u ≤ 1 / 1024) (hL : L = ‖x2‖) (hV : V = ‖x1‖)
    (VW : V ≤ W) (m1 : ‖y1 - x1‖ ≤ u * W) (m2 : ‖y2 - x2‖ ≤ 3 / 2 * u * L) (G0 : 0 ≤ G)
    (hN : 4 ≤ N) (hG1 : G ≤ 64 / 63 * ((N - 3) * u)) (hT : T ≤ 128 / 63 * τ)
    (τ1 : τ ≤ u * (W * L)) (τ2 : τ ≤ u * (u * L ^ 2)) (A0 : 0 ≤ A) (hA : A ≤ ‖y1‖ * ‖y2‖)
    (hdh : |dh - inner ℝ y1 y2| ≤ G * A + T) (hl2 : |l2 - ‖y2‖ ^ 2| ≤ G * ‖y2‖ ^ 2 + T) :
    |dh - inner ℝ x1 x2| ≤ 2 * N * u * W * L ∧ |l2 - L ^ 2| ≤ 2 * N * u * L ^ 2 := by
  have L0 : 0 ≤ L := by rw [hL]; exact norm_nonneg _
  have V0 : 0 ≤ V := by rw [hV]; exact norm_nonneg _
  have W0 : 0 ≤ W := V0.trans VW
  have k1 : ‖y1‖ ≤ (1 + u) * W := by
    have := norm_add_le (y1 - x1) x1
    rw [sub_add_cancel, ← hV] at this
    linarith
  have k2 : ‖y2‖ ≤ (1 + 3 / 2 * u) * L := by
    have := norm_add_le (y2 - x2) x2
    rw [sub_add_cancel, ← hL] at this
    linarith
  have hWL : 0 ≤ W * L := mul_nonneg W0 L0
  have hN3 : 0 ≤ (N - 3) * u := mul_nonneg (by linarith) u0
  have hnn : 1 + u ≤ 1025 / 1024 := by linarith
  have hmm : 1 + 3 / 2 * u ≤ 1026 / 1024 := by linarith
  constructor
  · -- scalar product
    have a1 : |inner ℝ y1 y2 - inner ℝ x1 x2| ≤ 21 / 8 * u * (W * L) := by
      have e : inner ℝ y1 y2 - inner ℝ x1 x2
          = inner ℝ (y1 - x1) y2 + inner ℝ x1 (y2 - x2) := by
        rw [inner_sub_left, inner_sub_right]; ring
      rw [e]
      have b1 := abs_real_inner_le_norm (y1 - x1) y2
      have b2 := abs_real_inner_le_norm x1 (y2 - x2)
      have b3 := abs_add_le (inner ℝ (y1 - x1) y2) (inner ℝ x1 (y2 - x2))
      rw [← hV] at b2
      have b4 : ‖y1 - x1‖ * ‖y2‖ ≤ (u * W) * (1026 / 1024 * L) :=
        mul_le_mul m1 (k2.trans (mul_le_mul_of_nonneg_right hmm L0)) (norm_nonneg _)
          (mul_nonneg u0 W0)
      have b5 : V * ‖y2 - x2‖ ≤ W * (3 / 2 * u * L) :=
        mul_le_mul VW m2 (norm_nonneg _) W0
      have : 0 ≤ u * (W * L) := mul_nonneg u0 hWL
      nlinarith
    have a2 := abs_add_le (dh - inner ℝ y1 y2)
      (inner ℝ y1 y2 - inner ℝ x1 x2)
    rw [sub_add_sub_cancel] at a2
    have a3 : A ≤ 66 / 64 * (W * L) := by
      refine hA.trans ?_
      calc ‖y1‖ * ‖y2‖ ≤ (1025 / 1024 * W) * (1026 / 1024 * L) :=
            mul_le_mul (k1.trans (mul_le_mul_of_nonneg_right hnn W0))
              (k2.trans (mul_le_mul_of_nonneg_right hmm L0)) (norm_nonneg _) (by positivity)
        _ ≤ 66 / 64 * (W * L) := by nlinarith
    have a4 : G * A ≤ 64 / 63 * ((N - 3) * u) * (66 / 64 * (W * L)) :=
      mul_le_mul hG1 a3 A0 (by positivity)
    have q1 : 0 ≤ u * (W * L) := mul_nonneg u0 hWL
    have q2 : 0 ≤ (N - 3) * (u * (W * L)) :=
      mul_nonneg (by linarith) q1
    have e4 : 64 / 63 * ((N - 3) * u) * (66 / 64 * (W * L))
        = 66 / 63 * ((N - 3) * (u * (W * L))) := by ring
    rw [e4] at a4
    have e5 : 2 * N * u * W * L = 2 * ((N - 3) * (u * (W * L))) + 6 * (u * (W * L)) := by
      ring
    rw [e5]
    have e6 : 21 / 8 * u * (W * L) = 21 / 8 * (u * (W * L)) := by ring
    rw [e6] at a1
    linarith
  · -- squared length
    have k2' : ‖y2‖ ≤ 1026 / 1024 * L := k2.trans (mul_le_mul_of_nonneg_right hmm L0)
    have a1 : |‖y2‖ ^ 2 - L ^ 2| ≤ 25 / 8 * (u * L ^ 2) := by
      have b1 : |‖y2‖ - L| ≤ 3 / 2 * u * L := by
        rw [hL]
        exact (abs_norm_sub_norm_le _ _).trans (by rw [← hL]; exact m2)
      have e : ‖y2‖ ^ 2 - L ^ 2 = (‖y2‖ - L) * (‖y2‖ + L) := by ring
      rw [e, abs_mul, abs_of_nonneg (add_nonneg (norm_nonneg y2) L0)]
      calc |‖y2‖ - L| * (‖y2‖ + L) ≤ (3 / 2 * u * L) * (1026 / 1024 * L + L) :=
            mul_le_mul b1 (by linarith) (by positivity) (by positivity)
        _ ≤ 25 / 8 * (u * L ^ 2) := by
            have : 0 ≤ u * L ^ 2 := by positivity
            nlinarith
    have a3 : ‖y2‖ ^ 2 ≤ 66 / 64 * L ^ 2 := by
      calc ‖y2‖ ^ 2 ≤ (1026 / 1024 * L) ^ 2 := pow_le_pow_left₀ (norm_nonneg _) k2' 2
        _ ≤ 66 / 64 * L ^ 2 := by nlinarith [sq_nonneg L]
    have a4 : G * ‖y2‖ ^ 2 ≤ 64 / 63 * ((N - 3) * u) * (66 / 64 * L ^ 2) :=
      mul_le_mul hG1 a3 (by positivity) (by positivity)
    have a2 := abs_add_le (l2 - ‖y2‖ ^ 2) (‖y2‖ ^ 2 - L ^ 2)
    rw [sub_add_sub_cancel] at a2
    have q1 : 0 ≤ u * L ^ 2 := by positivity
    have q2 : 0 ≤ (N - 3) * (u * L ^ 2) := mul_nonneg (by linarith) q1
    have e4 : 64 / 63 * ((N - 3) * u) * (66 / 64 * L ^ 2)
        = 66 / 63 * ((N - 3) * (u * L ^ 2)) := by ring
    rw [e4] at a4
    have e5 : 2 * N * u * L ^ 2 = 2 * ((N - 3) * (u * L ^ 2)) + 6 * (u * L ^ 2) := by ring
    rw [e5]
    have t5 : u * (u * L ^ 2) ≤ 1 / 1024 * (u * L ^ 2) :=
      mul_le_mul_of_nonneg_right hu q1
    linarith


/-- The scalar product and the squared length computed by `distance_to_point` of a segment. -/
theorem dot_length_error (l : LineSegment (PointN (Fl F) n)) (p : PointN (Fl F) n)
    {M L V : ℝ} (hM : 0 ≤ M) (hu : F.u ≤ 1 / 1024) (he : F.eta ≤ 1 / 1024)
    (hs : BoundedBy M l.start) (hd : BoundedBy M l.end_) (hp : BoundedBy M p)
    (hmax : 5 / 2 * M + 1 ≤ F.max)
    (hmax' : (1 + F.u) ^ (n + 1) * (n * (5 / 2 * M + 1) ^ 2) + 2 * n * (1 + F.u) ^ n * F.eta
      ≤ F.max)
    (hn : (n + 4 : ℕ) * F.u ≤ 1 / 64) (hη : n * F.eta ≤ F.u ^ 2 * F.epsilon)
    (hL : L = ‖vec fun i => (l.end_.coords i).toReal - (l.start.coords i).toReal‖)
    (hV : V = ‖vec fun i => (p.coords i).toReal - (l.start.coords i).toReal‖)
    (hlong : F.epsilon ≤ L ^ 2) :
    ∃ dh l2 h h', LineSegment.dotLoop (p - l.start) (l.end_ - l.start) = some (fin dh h : Fl F) ∧
      (Point.squaredLength (l.end_ - l.start) : Fl F) = fin l2 h' ∧
      |dh - inner ℝ (vec fun i => (p.coords i).toReal - (l.start.coords i).toReal)
          (vec fun i => (l.end_.coords i).toReal - (l.start.coords i).toReal)|
        ≤ 2 * (n + 4 : ℕ) * F.u * (V + F.u * Real.sqrt F.epsilon) * L ∧
      |l2 - L ^ 2| ≤ 2 * (n + 4 : ℕ) * F.u * L ^ 2 := by
  have u0 := F.u_nonneg
  have e0 := F.eta_nonneg
  have eps0 := F.epsilon_pos
  have eps1 := F.epsilon_le
  set v1 := p - l.start with hv1
  set v2 := l.end_ - l.start with hv2
  set x1 : Fin n → ℝ := fun i => (p.coords i).toReal - (l.start.coords i).toReal with hx1
  set x2 : Fin n → ℝ := fun i => (l.end_.coords i).toReal - (l.start.coords i).toReal with hx2
  set y1 : Fin n → ℝ := fun i => (v1.coords i).toReal with hy1
  set y2 : Fin n → ℝ := fun i => (v2.coords i).toReal with hy2
  have n1 := sub_norm_error p l.start hu he hM hp hs hmax
  have n2 := sub_norm_error l.end_ l.start hu he hM hd hs hmax
  rw [← hV] at n1
  rw [← hL] at n2
  have f1 := sub_error p l.start hu he hM hp hs hmax
  have f2 := sub_error l.end_ l.start hu he hM hd hs hmax
  have hB : 0 ≤ 5 / 2 * M + 1 := by positivity
  -- no overflow
  have hbig : ∀ z w : Fin n → ℝ, (∀ i, |z i| ≤ 5 / 2 * M + 1) → (∀ i, |w i| ≤ 5 / 2 * M + 1) →
      (1 + F.u) ^ (n + 1) * ∑ i, |z i * w i| + 2 * n * (1 + F.u) ^ n * F.eta ≤ F.max := by
    intro z w hz hw
    refine le_trans (add_le_add_left (mul_le_mul_of_nonneg_left ?_ (by positivity)) _) hmax'
    calc ∑ i, |z i * w i| ≤ ∑ _i : Fin n, (5 / 2 * M + 1) ^ 2 := by
          apply Finset.sum_le_sum
          intro i _
          rw [abs_mul, sq]
          exact mul_le_mul (hz i) (hw i) (abs_nonneg _) hB
      _ = n * (5 / 2 * M + 1) ^ 2 := by simp
  obtain ⟨dh, hdh, edh, ddh⟩ := dot_error v1 v2 (fun i => (f1 i).1) (fun i => (f2 i).1)
    (hbig y1 y2 (fun i => (f1 i).2.1) (fun i => (f2 i).2.1))
  obtain ⟨fl2, l20, dl2⟩ := C88_squared_length v2 (Or.inr ⟨fun i => (f2 i).1, by
    have := hbig y2 y2 (fun i => (f2 i).2.1) (fun i => (f2 i).2.1)
    simpa only [abs_mul_self, ← sq, abs_sq] using this⟩)
  obtain ⟨l2, hl2, el2⟩ := isFinite_iff.1 fl2
  rw [el2, toReal_fin] at dl2
  refine ⟨dh, l2, hdh, hl2, edh, el2, ?_⟩
  -- sizes
  set N : ℝ := ((n + 4 : ℕ) : ℝ) with hN
  have hNn : N = n + 4 := by rw [hN]; push_cast; ring
  have n0 : (0 : ℝ) ≤ n := Nat.cast_nonneg n
  set r := Real.sqrt F.epsilon with hr
  have r0 : 0 < r := Real.sqrt_pos.2 eps0
  have r2 : r ^ 2 = F.epsilon := Real.sq_sqrt eps0.le
  have r1 : r ≤ 1 := Real.sqrt_le_one.2 eps1
  have L0 : 0 ≤ L := by rw [hL]; exact norm_nonneg _
  have V0 : 0 ≤ V := by rw [hV]; exact norm_nonneg _
  have rL : r ≤ L := by
    rw [hr]; apply Real.sqrt_le_iff.2; exact ⟨L0, hlong⟩
  set W := V + F.u * r with hW
  have W0 : 0 ≤ W := by positivity
  have VW : V ≤ W := by rw [hW]; nlinarith
  have urW : F.u * r ≤ W := by rw [hW]; linarith
  have hsn : Real.sqrt n * F.eta ≤ F.u ^ 2 * F.epsilon := by
    rcases Nat.eq_zero_or_pos n with h0 | h0
    · subst h0; simp; positivity
    · refine le_trans (mul_le_mul_of_nonneg_right ?_ e0) hη
      have : (1 : ℝ) ≤ n := by exact_mod_cast h0
      apply Real.sqrt_le_iff.2
      exact ⟨n0, by nlinarith⟩
  have t1 : F.u ^ 2 * F.epsilon ≤ F.u * (F.u * r) := by
    rw [← r2]
    have := mul_le_mul_of_nonneg_left r1 (mul_nonneg (mul_nonneg u0 u0) r0.le)
    linarith
  have t2 : F.u ^ 2 * F.epsilon ≤ F.u * (F.u * L) := by
    refine t1.trans ?_
    exact mul_le_mul_of_nonneg_left (mul_le_mul_of_nonneg_left rL u0) u0
  have t3 : F.u ^ 2 * F.epsilon ≤ F.u * (W * L) := by
    rw [← r2]
    have : (F.u * r) * r ≤ W * L := mul_le_mul urW rL r0.le W0
    have := mul_le_mul_of_nonneg_left this u0
    linarith
  have t4 : F.u ^ 2 * F.epsilon ≤ F.u * (F.u * L ^ 2) := by
    have := mul_le_mul_of_nonneg_left hlong (mul_nonneg u0 u0)
    linarith
  set y1' := vec y1
  set y2' := vec y2
  have m1 : ‖y1' - vec x1‖ ≤ F.u * W := by
    refine n1.trans ?_
    rw [hW, mul_add]
    linarith
  have m2 : ‖y2' - vec x2‖ ≤ 3 / 2 * F.u * L := by
    refine n2.trans ?_
    have : F.u * (F.u * L) ≤ F.u * (1 / 1024 * L) :=
      mul_le_mul_of_nonneg_left (mul_le_mul_of_nonneg_right hu L0) u0
    have := mul_nonneg u0 L0
    linarith
  have hp1 := small_pow (F := F) hu (m := n + 1) (by
    refine le_trans (mul_le_mul_of_nonneg_right ?_ u0) hn
    rw [hNn]; push_cast; linarith)
  have hp2 := (small_pow (F := F) hu (m := n) (by
    refine le_trans (mul_le_mul_of_nonneg_right ?_ u0) hn
    rw [hNn]; push_cast; linarith)).2
  set G := (1 + F.u) ^ (n + 1) - 1 with hG
  have G0 : 0 ≤ G := by
    have := one_le_g (F := F) (n + 1)
    rw [hG]; linarith
  have hG1 : G ≤ 64 / 63 * ((N - 3) * F.u) := by
    refine hp1.1.trans (le_of_eq ?_)
    rw [hNn]; push_cast; ring
  have htail : 2 * n * (1 + F.u) ^ n * F.eta ≤ 128 / 63 * (F.u ^ 2 * F.epsilon) := by
    have a1 : 2 * n * (1 + F.u) ^ n * F.eta = (1 + F.u) ^ n * (2 * (n * F.eta)) := by ring
    rw [a1]
    calc (1 + F.u) ^ n * (2 * (n * F.eta)) ≤ 64 / 63 * (2 * (F.u ^ 2 * F.epsilon)) :=
          mul_le_mul hp2 (by linarith) (by positivity) (by norm_num)
      _ = _ := by ring
  refine dot_numbers (vec x1) (vec x2) y1' y2' u0 hu hL hV VW m1 m2 G0 (by rw [hNn]; linarith) hG1
    htail t3 t4 (Finset.sum_nonneg fun i _ => abs_nonneg _) (sum_abs_le_norm y1 y2) ?_ ?_
  · rw [inner_vec y1 y2]; exact ddh
  · have hy2 : ∑ i, y2 i ^ 2 = ‖y2'‖ ^ 2 := by
      rw [norm_vec, Real.sq_sqrt (Finset.sum_nonneg fun i _ => sq_nonneg _)]
    rw [← hy2]; exact dl2

/-- Distances from a point of the exact segment, as a norm. -/
theorem line_pdist (l : LineSegment (PointN (Fl F) n)) (p : PointN (Fl F) n) (s : ℝ) :
    pdist (l.real.eval s) p.real
      = ‖vec (fun i => (p.coords i).toReal - (l.start.coords i).toReal)
        - s • vec (fun i => (l.end_.coords i).toReal - (l.start.coords i).toReal)‖ := by
  rw [pdist_vec, ← norm_neg]
  congr 1
  ext i
  show -((l.start.coords i).toReal + ((l.end_.coords i).toReal - (l.start.coords i).toReal) * s
    - (p.coords i).toReal) = (p.coords i).toReal - (l.start.coords i).toReal
      - s * ((l.end_.coords i).toReal - (l.start.coords i).toReal)
  ring

/-- Relative error of the projection parameter. -/
noncomputable def projTiny (F : FloatFormat) (n : ℕ) (V : ℝ) : ℝ :=
  10 * (n + 4 : ℕ) * F.u * (V + F.u * Real.sqrt F.epsilon)

/-- **C89**, accuracy of `LineSegment::distance_to_point`: for a point that projects before the
end of the segment (by more than the rounding error of the projection), the result exceeds the
true distance by rounding errors only.  `L` is the length of the segment, `V` the distance of the
point from its start, `M` bounds the coordinates. -/
theorem C89_line_accurate (l : LineSegment (PointN (Fl F) n)) (p : PointN (Fl F) n)
    {M L V : ℝ} (hM : 0 ≤ M) (hu : F.u ≤ 1 / 1024) (he : F.eta ≤ 1 / 1024)
    (hs : BoundedBy M l.start) (hd : BoundedBy M l.end_) (hp : BoundedBy M p)
    (hmax : 5 / 2 * (M + lineTiny F M) + 1 ≤ F.max)
    (hmax' : (1 + F.u) ^ (n + 1) * (n * (5 / 2 * (M + lineTiny F M) + 1) ^ 2)
      + 2 * n * (1 + F.u) ^ n * F.eta ≤ F.max)
    (hn : (n + 4 : ℕ) * F.u ≤ 1 / 64) (hη : n * F.eta ≤ F.u ^ 2 * F.epsilon)
    (hL : L = pdist l.end_.real l.start.real) (hV : V = pdist p.real l.start.real)
    (hlong : 2 * F.epsilon ≤ L ^ 2)
    (hproj : ∑ i, ((p.coords i).toReal - (l.start.coords i).toReal)
        * ((l.end_.coords i).toReal - (l.start.coords i).toReal)
      + projTiny F n V * L + F.eta * L ^ 2 < L ^ 2) :
    ∃ d, l.distanceToPoint p = some d ∧ d.IsFinite ∧ 0 ≤ d.toReal ∧
      ∀ s, 0 ≤ s → s ≤ 1 → d.toReal
        ≤ (1 + F.u) ^ (n + 3) * (pdist (l.real.eval s) p.real + projTiny F n V + F.eta * L
          + Real.sqrt n * lineTiny F M) + distTiny F n := by
  have u0 := F.u_nonneg
  have e0 := F.eta_nonneg
  have eps0 := F.epsilon_pos
  have E0 := lineTiny_nonneg (F := F) hM
  have hmaxM : 5 / 2 * M + 1 ≤ F.max := by linarith
  have hmaxM' : (1 + F.u) ^ (n + 1) * (n * (5 / 2 * M + 1) ^ 2) + 2 * n * (1 + F.u) ^ n * F.eta
      ≤ F.max := by
    refine le_trans (add_le_add_left (mul_le_mul_of_nonneg_left (mul_le_mul_of_nonneg_left
      (pow_le_pow_left₀ (by positivity) (by linarith) 2) (Nat.cast_nonneg n)) (by positivity)) _)
      hmax'
  rw [pdist_vec] at hL hV
  obtain ⟨dh, l2, hdh, hl2, edh, el2, ddh, dl2⟩ := dot_length_error l p hM hu he hs hd hp hmaxM
    hmaxM' hn hη hL hV (by linarith)
  set x1 := vec fun i => (p.coords i).toReal - (l.start.coords i).toReal with hx1
  set x2 := vec fun i => (l.end_.coords i).toReal - (l.start.coords i).toReal with hx2
  have hL' : L = ‖x2‖ := hL
  have hV' : V = ‖x1‖ := hV
  set N : ℝ := ((n + 4 : ℕ) : ℝ) with hN
  have hN4 : 4 ≤ N := by
    rw [hN]; push_cast; have := Nat.cast_nonneg (α := ℝ) n; linarith
  set κ := 2 * N * F.u with hκ
  have κ0 : 0 ≤ κ := by positivity
  have κ1 : κ ≤ 1 / 32 := by rw [hκ]; linarith
  have uκ : F.u ≤ κ := by
    rw [hκ]
    have := mul_le_mul_of_nonneg_right hN4 u0
    linarith
  set W := V + F.u * Real.sqrt F.epsilon with hW
  have V0 : 0 ≤ V := by rw [hV]; exact norm_nonneg _
  have VW : V ≤ W := by rw [hW]; linarith [mul_nonneg u0 (Real.sqrt_nonneg F.epsilon)]
  have W0 : 0 ≤ W := V0.trans VW
  have Lnn : 0 ≤ L := by rw [hL]; exact norm_nonneg _
  have L0 : 0 < L := by
    rcases Lnn.lt_or_eq with h | h
    · exact h
    · rw [← h] at hlong; norm_num at hlong; linarith
  have L20 : 0 < L ^ 2 := by positivity
  have hpT : projTiny F n V = 5 * κ * W := by
    unfold projTiny; rw [hκ, hW]; ring
  rw [hpT] at hproj ⊢
  have hl20 : F.epsilon ≤ l2 := by
    have := neg_abs_le (l2 - L ^ 2)
    have : κ * L ^ 2 ≤ 1 / 32 * L ^ 2 := mul_le_mul_of_nonneg_right κ1 L20.le
    linarith
  have hl2ne : l2 ≠ 0 := by linarith
  set dot := inner ℝ x1 x2 with hdot
  rw [← inner_vec] at hproj
  have hdotle : |dot| ≤ V * L := by
    rw [hV', hL']; exact abs_real_inner_le_norm x1 x2
  obtain ⟨q1, q2⟩ := quotient_error L0 VW W0 (by linarith) κ0 hdotle ddh dl2
  set q := dh / l2 with hq
  set t' := dot / L ^ 2 with ht'
  have hrnd := F.rnd_err q
  have WL0 : 0 ≤ W / L := by positivity
  have herr : |F.rnd q - t'| ≤ 5 * κ * (W / L) + F.eta := by
    have a1 := abs_add_le (F.rnd q - q) (q - t')
    rw [sub_add_sub_cancel] at a1
    have a2 : F.u * |q| ≤ κ * (2 * (W / L)) := mul_le_mul uκ q2 (abs_nonneg _) κ0
    linarith
  have ht'1 : t' + 5 * κ * (W / L) + F.eta < 1 := by
    have a1 : (t' + 5 * κ * (W / L) + F.eta) * L ^ 2 < 1 * L ^ 2 := by
      have : (t' + 5 * κ * (W / L) + F.eta) * L ^ 2 = dot + 5 * κ * W * L + F.eta * L ^ 2 := by
        rw [ht']; field_simp
      rw [this, one_mul]
      exact hproj
    exact lt_of_mul_lt_mul_right a1 L20.le
  have hr1 : F.rnd q < 1 := by linarith [le_abs_self (F.rnd q - t')]
  -- the clamped parameter
  have hpar : ∃ t ht, (if Scalar.lt (if Scalar.lt (F.round q) (lit 1) then F.round q
        else lit 0 : Fl F) (lit 0) then lit 0
      else (if Scalar.lt (F.round q) (lit 1) then F.round q else lit 0) : Fl F) = fin t ht ∧
      0 ≤ t ∧ t ≤ 1 ∧ (t = F.rnd q ∨ (t = 0 ∧ F.rnd q < 0)) := by
    rw [lit_zero, lit_one]
    by_cases hm : |F.rnd q| ≤ F.max
    · rw [F.round_of_rnd_le hm]
      by_cases h0 : F.rnd q < 0
      · exact ⟨0, F.zero_ok, by simp [lt_fin, hr1, h0], le_rfl, zero_le_one, Or.inr ⟨rfl, h0⟩⟩
      · exact ⟨F.rnd q, ⟨F.rnd_mem q, hm⟩, by simp [lt_fin, hr1, h0], not_lt.1 h0, hr1.le,
          Or.inl rfl⟩
    · have hneg : F.rnd q < 0 := by
        by_contra hc
        push Not at hc hm
        rw [abs_of_nonneg hc] at hm
        linarith [F.max_ge]
      have hq0 : q < 0 := by
        by_contra hc
        push Not at hc
        have := F.rnd_mono hc
        rw [F.rnd_of_mem 0 F.zero_ok.1] at this
        linarith
      have hro : F.round q = inf true := by
        unfold FloatFormat.round
        rw [dif_neg hm, decide_eq_true hq0]
      have h1 : Scalar.lt (inf true : Fl F) (fin 1 F.one_ok) = true := rfl
      have h2 : Scalar.lt (inf true : Fl F) (fin 0 F.zero_ok) = true := rfl
      exact ⟨0, F.zero_ok, by rw [hro, h1, if_pos rfl, h2, if_pos rfl], le_rfl, zero_le_one,
        Or.inr ⟨rfl, hneg⟩⟩
  obtain ⟨t, ht, et, t0, t1, htr⟩ := hpar
  have hbr : l.distanceToPoint p
      = some (Scalar.sqrt (Point.squaredLength (p - l.eval (fin t ht)) : Fl F)) := by
    unfold LineSegment.distanceToPoint
    simp only
    rw [el2, epsilon_eq, if_neg (by simp only [lt_fin]; exact not_lt.2 hl20), edh]
    simp only [Option.bind_eq_bind, Option.bind_some, Option.pure_def]
    rw [fin_div hl2ne, et]
    rfl
  have hEv : BoundedBy (M + lineTiny F M) (l.eval (fin t ht)) := by
    intro i
    obtain ⟨f, g⟩ := C67_line_eval l ht t0 t1 hu he hs hd hmaxM i
    refine ⟨f, ?_⟩
    set z := ((l.eval (fin t ht)).coords i).toReal
    set y := (1 - t) * (l.start.coords i).toReal + t * (l.end_.coords i).toReal with hy
    have a1 := abs_add_le (z - y) y
    rw [sub_add_cancel] at a1
    have a2 := abs_add_le ((1 - t) * (l.start.coords i).toReal) (t * (l.end_.coords i).toReal)
    rw [← hy, abs_mul, abs_mul, abs_of_nonneg t0, abs_of_nonneg (sub_nonneg.2 t1)] at a2
    have a3 := mul_le_mul_of_nonneg_left (hs i).2 (sub_nonneg.2 t1)
    have a4 := mul_le_mul_of_nonneg_left (hd i).2 t0
    unfold lineTiny
    linarith
  have hfin := sq_finite_of_bounded (p := p) (q := l.eval (fin t ht)) hu he
    (fun i => ⟨(hp i).1, (hp i).2.trans (by linarith)⟩) hEv (by linarith) hmax hmax'
  obtain ⟨_, df, d0, derr⟩ := C88_point_distance p (l.eval (fin t ht)) hfin
  refine ⟨_, hbr, df, d0, fun s s0 s1 => ?_⟩
  -- the point is almost the closest
  have hw : 0 < ‖x2‖ := hL' ▸ L0
  have ht'' : t' = inner ℝ x1 x2 / ‖x2‖ ^ 2 := by rw [ht', hL']
  have hclose : ‖x1 - t • x2‖ ≤ ‖x1 - s • x2‖ + (5 * κ * W + F.eta * L) := by
    have hstep : ∀ r : ℝ, |r - t'| ≤ 5 * κ * (W / L) + F.eta →
        ‖x1 - r • x2‖ ≤ ‖x1 - s • x2‖ + (5 * κ * W + F.eta * L) := by
      intro r hr
      have c1 := closest_param x1 x2 (s := s) (t := t') hw ht'' (by simp)
      have c2 : ‖x1 - r • x2‖ ≤ ‖x1 - t' • x2‖ + |r - t'| * L := by
        have e : x1 - r • x2 = (x1 - t' • x2) - (r - t') • x2 := by
          rw [sub_smul]; abel
        rw [e]
        refine (norm_sub_le _ _).trans ?_
        rw [norm_smul, Real.norm_eq_abs, ← hL']
      have c3 : |r - t'| * L ≤ (5 * κ * (W / L) + F.eta) * L :=
        mul_le_mul_of_nonneg_right hr Lnn
      have c4 : (5 * κ * (W / L) + F.eta) * L = 5 * κ * W + F.eta * L := by
        field_simp
      linarith
    rcases htr with h | ⟨h, hneg⟩
    · rw [h]; exact hstep _ herr
    · by_cases h0 : t' ≤ 0
      · have c1 := closest_param x1 x2 (s := s) (t := t) hw ht'' (by
          rw [h, zero_sub, abs_neg, abs_of_nonpos h0, abs_of_nonneg (by linarith)]
          linarith)
        have : 0 ≤ 5 * κ * W + F.eta * L := by positivity
        linarith
      · rw [h]
        apply hstep
        push Not at h0
        rw [zero_sub, abs_neg, abs_of_pos h0]
        linarith [neg_abs_le (F.rnd q - t')]
  have h2 := line_eval_near l hM ht t0 t1 hu he hs hd hmaxM
  have h3 := pdist_triangle p.real (l.real.eval t) (l.eval (fin t ht)).real
  rw [pdist_comm p.real (l.real.eval t)] at h3
  rw [line_pdist] at h3
  rw [line_pdist]
  have h4 : (Scalar.sqrt (Point.squaredLength (p - l.eval (fin t ht)) : Fl F)).toReal
      ≤ (1 + F.u) ^ (n + 3) * pdist p.real (l.eval (fin t ht)).real + distTiny F n := by
    linarith [le_abs_self ((Scalar.sqrt (Point.squaredLength (p - l.eval (fin t ht)) : Fl F)).toReal
      - pdist p.real (l.eval (fin t ht)).real)]
  refine h4.trans ?_
  have h5 : pdist p.real (l.eval (fin t ht)).real
      ≤ ‖x1 - s • x2‖ + 5 * κ * W + F.eta * L + Real.sqrt n * lineTiny F M := by linarith
  have := mul_le_mul_of_nonneg_left h5 (by positivity : 0 ≤ (1 + F.u) ^ (n + 3))
  linarith

theorem distTiny_two {F : FloatFormat} (hu : F.u = 2 ^ (-(53 : ℕ) : ℤ))
    (heta : F.eta ≤ 1 / 10 ^ 60) : distTiny F 2 ≤ 1 / 10 ^ 26 := by
  have e0 := F.eta_nonneg
  have u0 := F.u_nonneg
  have g4 : (1 + F.u) ^ (2 + 2) ≤ 2 := by rw [hu]; norm_num
  have g2 : (1 + F.u) ^ 2 ≤ 2 := by rw [hu]; norm_num
  have g1 : 1 + F.u ≤ 2 := by rw [hu]; norm_num
  have hsq2 : Real.sqrt ((2 : ℕ) : ℝ) ≤ 3 / 2 := by
    apply Real.sqrt_le_iff.2; norm_num
  unfold distTiny
  have a1 : (1 + F.u) ^ (2 + 2) * (Real.sqrt ((2 : ℕ) : ℝ) * F.eta)
      ≤ 2 * (3 / 2 * (1 / 10 ^ 60)) :=
    mul_le_mul g4 (mul_le_mul hsq2 heta e0 (by norm_num)) (by positivity) (by norm_num)
  have a2 : Real.sqrt (2 * ((2 : ℕ) : ℝ) * (1 + F.u) ^ 2 * F.eta) ≤ 1 / 10 ^ 28 := by
    apply Real.sqrt_le_iff.2
    refine ⟨by positivity, ?_⟩
    have : 2 * ((2 : ℕ) : ℝ) * (1 + F.u) ^ 2 * F.eta ≤ 8 * (1 / 10 ^ 60) := by
      apply mul_le_mul _ heta e0 (by norm_num)
      push_cast
      linarith
    exact this.trans (by norm_num)
  have a3 : (1 + F.u) * Real.sqrt (2 * ((2 : ℕ) : ℝ) * (1 + F.u) ^ 2 * F.eta)
      ≤ 2 * (1 / 10 ^ 28) := mul_le_mul g1 a2 (Real.sqrt_nonneg _) (by norm_num)
  have : (2 : ℝ) * (3 / 2 * (1 / 10 ^ 60)) + 2 * (1 / 10 ^ 28) + 1 / 10 ^ 60
      ≤ 1 / 10 ^ 26 := by norm_num
  linarith

theorem pdist_le_bounded {p q : PointN (Fl F) 2} {M : ℝ} (hM : 0 ≤ M) (hp : BoundedBy M p)
    (hq : BoundedBy M q) : pdist p.real q.real ≤ 3 * M := by
  have h : pdist p.real q.real ≤ Real.sqrt (2 : ℕ) * (2 * M) := by
    rw [pdist_vec, ← norm_vec_const _ (by positivity : (0 : ℝ) ≤ 2 * M)]
    apply norm_vec_mono
    intro i
    have a := abs_sub (p.coords i).toReal (q.coords i).toReal
    exact a.trans (by linarith [(hp i).2, (hq i).2])
  have hsq2 : Real.sqrt ((2 : ℕ) : ℝ) ≤ 3 / 2 := by
    apply Real.sqrt_le_iff.2; norm_num
  have := mul_le_mul_of_nonneg_right hsq2 (by positivity : (0 : ℝ) ≤ 2 * M)
  exact (h.trans this).trans (le_of_eq (by ring))

theorem line_numbers {F : FloatFormat} (hu : F.u = 2 ^ (-(53 : ℕ) : ℤ))
    (heps : F.epsilon = 2 ^ (1 - (53 : ℕ) : ℤ)) (heta : F.eta ≤ 1 / 10 ^ 60)
    (hmx : 10 ^ 60 ≤ F.max) (l : LineSegment (PointN (Fl F) 2)) (p : PointN (Fl F) 2) {M : ℝ}
    (hM : 0 ≤ M) (hM' : M ≤ 10 ^ 9) (hs : BoundedBy M l.start) (hd : BoundedBy M l.end_)
    (hp : BoundedBy M p) (hlong : 1 ≤ pdist l.end_.real l.start.real)
    (hproj : ∑ i, ((p.coords i).toReal - (l.start.coords i).toReal)
        * ((l.end_.coords i).toReal - (l.start.coords i).toReal)
      ≤ (1 - 1 / 10 ^ 4) * pdist l.end_.real l.start.real ^ 2) :
    ∃ d, l.distanceToPoint p = some d ∧ d.IsFinite ∧ 0 ≤ d.toReal ∧
      ∀ s, 0 ≤ s → s ≤ 1 → d.toReal
        ≤ (1 + 1 / 10 ^ 15) * pdist (l.real.eval s) p.real + 1 / 10 ^ 13 * M + 1 / 10 ^ 25 := by
  have e0 := F.eta_nonneg
  have u0 := F.u_nonneg
  have u1 : F.u ≤ 1 / 10 ^ 15 := by rw [hu]; norm_num
  have u2 : 60 * F.u ≤ 7 / 10 ^ 15 := by rw [hu]; norm_num
  have g5 : (1 + F.u) ^ (2 + 3) ≤ 1 + 1 / 10 ^ 15 := by rw [hu]; norm_num
  have g3 : (1 + F.u) ^ (2 + 1) ≤ 2 := by rw [hu]; norm_num
  have g2 : (1 + F.u) ^ 2 ≤ 2 := by rw [hu]; norm_num
  have hsq2 : Real.sqrt ((2 : ℕ) : ℝ) ≤ 3 / 2 := by
    apply Real.sqrt_le_iff.2; norm_num
  have hl1 : pdist l.end_.real l.start.real ≤ 3 * M := pdist_le_bounded hM hd hs
  have hv1 : pdist p.real l.start.real ≤ 3 * M := pdist_le_bounded hM hp hs
  have hv0 : 0 ≤ pdist p.real l.start.real := pdist_nonneg _ _
  set L := pdist l.end_.real l.start.real with hL
  set V := pdist p.real l.start.real with hV
  have hE : lineTiny F M ≤ 6 / 10 ^ 15 * M + 1 / 10 ^ 50 := by
    unfold lineTiny
    have a1 := mul_le_mul_of_nonneg_right u1 hM
    have a2 : (4 : ℝ) * (1 / 10 ^ 60) ≤ 1 / 10 ^ 50 := by norm_num
    linarith
  have E0 := lineTiny_nonneg (F := F) hM
  have hB : 5 / 2 * (M + lineTiny F M) + 1 ≤ 10 ^ 10 := by
    have : (6 : ℝ) / 10 ^ 15 * M ≤ 1 * M := mul_le_mul_of_nonneg_right (by norm_num) hM
    norm_num at this hE hM' ⊢
    linarith
  have hsqe : Real.sqrt F.epsilon ≤ 1 / 10 ^ 7 := by
    apply Real.sqrt_le_iff.2; rw [heps]; norm_num
  have hP : projTiny F 2 V ≤ 7 / 10 ^ 15 * V + 1 / 10 ^ 36 := by
    unfold projTiny
    have a0 : F.u * Real.sqrt F.epsilon ≤ 1 / 10 ^ 15 * (1 / 10 ^ 7) :=
      mul_le_mul u1 hsqe (Real.sqrt_nonneg _) (by norm_num)
    have a1 : 60 * F.u * (V + F.u * Real.sqrt F.epsilon)
        ≤ 7 / 10 ^ 15 * (V + 1 / 10 ^ 22) := by
      apply mul_le_mul u2 _ (by positivity) (by norm_num)
      have : (1 : ℝ) / 10 ^ 15 * (1 / 10 ^ 7) = 1 / 10 ^ 22 := by norm_num
      linarith
    have a2 : (7 : ℝ) / 10 ^ 15 * (1 / 10 ^ 22) ≤ 1 / 10 ^ 36 := by norm_num
    push_cast
    linarith
  have hP0 : 0 ≤ projTiny F 2 V := by unfold projTiny; positivity
  obtain ⟨d, hr, rf, r0, hup⟩ := C89_line_accurate l p hM (u1.trans (by norm_num))
    (heta.trans (by norm_num)) hs hd hp
    (hB.trans (le_trans (by norm_num) hmx))
    (by
      have a0 : (5 / 2 * (M + lineTiny F M) + 1) ^ 2 ≤ 10 ^ 20 := by
        calc (5 / 2 * (M + lineTiny F M) + 1) ^ 2 ≤ (10 ^ 10) ^ 2 :=
              pow_le_pow_left₀ (by positivity) hB 2
          _ = 10 ^ 20 := by norm_num
      have a1 : (1 + F.u) ^ (2 + 1) * (((2 : ℕ) : ℝ) * (5 / 2 * (M + lineTiny F M) + 1) ^ 2)
          ≤ 2 * (2 * 10 ^ 20) := by
        apply mul_le_mul g3 _ (by positivity) (by norm_num)
        push_cast
        linarith
      have a2 : 2 * ((2 : ℕ) : ℝ) * (1 + F.u) ^ 2 * F.eta ≤ 8 * 1 := by
        apply mul_le_mul _ (heta.trans (by norm_num)) e0 (by norm_num)
        push_cast
        linarith
      have : (2 : ℝ) * (2 * 10 ^ 20) + 8 * 1 ≤ 10 ^ 60 := by norm_num
      exact (add_le_add a1 a2).trans (this.trans hmx))
    (by rw [hu]; norm_num)
    (by
      rw [heps, hu]
      refine le_trans (mul_le_mul_of_nonneg_left heta (by norm_num)) ?_
      norm_num)
    hL hV
    (by
      rw [heps]
      have : (1 : ℝ) ≤ L ^ 2 := one_le_pow₀ hlong
      refine le_trans ?_ this
      norm_num)
    (by
      have a0 : L ≤ L ^ 2 := by rw [sq]; exact le_mul_of_one_le_left (by linarith) hlong
      have a1 : projTiny F 2 V ≤ 3 / 10 ^ 5 := by
        refine hP.trans ?_
        have : V ≤ 3 * 10 ^ 9 := by linarith
        have := mul_le_mul_of_nonneg_left this (by norm_num : (0 : ℝ) ≤ 7 / 10 ^ 15)
        norm_num at this ⊢
        linarith
      have a2 : projTiny F 2 V * L ≤ 3 / 10 ^ 5 * L ^ 2 :=
        mul_le_mul a1 a0 (by linarith) (by norm_num)
      have a3 : F.eta * L ^ 2 ≤ 1 / 10 ^ 5 * L ^ 2 :=
        mul_le_mul_of_nonneg_right (heta.trans (by norm_num)) (by positivity)
      have a4 : 0 < L ^ 2 := by positivity
      linarith)
  refine ⟨d, hr, rf, r0, fun s s0 s1 => (hup s s0 s1).trans ?_⟩
  have hT := distTiny_two hu heta
  have hX : 0 ≤ pdist (l.real.eval s) p.real := pdist_nonneg _ _
  set X := pdist (l.real.eval s) p.real
  set Y := projTiny F 2 V + F.eta * L + Real.sqrt ((2 : ℕ) : ℝ) * lineTiny F M with hY
  have hY0 : 0 ≤ Y := by positivity
  have hYle : Y ≤ 4 / 10 ^ 14 * M + 1 / 10 ^ 30 := by
    have a1 : Real.sqrt ((2 : ℕ) : ℝ) * lineTiny F M ≤ 3 / 2 * (6 / 10 ^ 15 * M + 1 / 10 ^ 50) :=
      mul_le_mul hsq2 hE E0 (by norm_num)
    have a2 : F.eta * L ≤ 1 / 10 ^ 60 * (3 * M) :=
      mul_le_mul heta hl1 (by linarith) (by norm_num)
    have a3 : (7 : ℝ) / 10 ^ 15 * V ≤ 7 / 10 ^ 15 * (3 * M) :=
      mul_le_mul_of_nonneg_left hv1 (by norm_num)
    rw [hY]
    have a4 : (1 : ℝ) / 10 ^ 60 * (3 * M) ≤ 1 / 10 ^ 15 * M := by
      rw [← mul_assoc]; exact mul_le_mul_of_nonneg_right (by norm_num) hM
    norm_num at *
    linarith
  have hsum : X + projTiny F 2 V + F.eta * L + Real.sqrt ((2 : ℕ) : ℝ) * lineTiny F M = X + Y := by
    rw [hY]; ring
  rw [hsum]
  have hXY : (1 + F.u) ^ (2 + 3) * (X + Y) ≤ (1 + 1 / 10 ^ 15) * (X + Y) :=
    mul_le_mul_of_nonneg_right g5 (by linarith)
  have hY2 : (1 + 1 / 10 ^ 15) * Y ≤ 2 * (4 / 10 ^ 14 * M + 1 / 10 ^ 30) :=
    mul_le_mul (by norm_num) hYle hY0 (by norm_num)
  norm_num at *
  linarith

section Binary64

variable (cosI acosI : ℝ → ℝ) (powI : ℝ → ℝ → ℝ)

/-- **C89** in numbers: for an `f64` segment in the plane of length at least 1, coordinates up to
`M ≤ 10^9` and a point that projects onto the line before 99.99 % of the segment (possibly before
its start), `LineSegment::distance_to_point` returns a finite number that exceeds the distance to
any point of the segment by at most a relative `10⁻¹⁵` and an absolute `10⁻¹³ M + 10⁻²⁵`. -/
theorem C89_line_binary64 (l : LineSegment (PointN (Fl (binary64 cosI acosI powI)) 2))
    (p : PointN (Fl (binary64 cosI acosI powI)) 2) {M : ℝ} (hM : 0 ≤ M) (hM' : M ≤ 10 ^ 9)
    (hs : BoundedBy M l.start) (hd : BoundedBy M l.end_)
    (hp : BoundedBy M p) (hlong : 1 ≤ pdist l.end_.real l.start.real)
    (hproj : ∑ i, ((p.coords i).toReal - (l.start.coords i).toReal)
        * ((l.end_.coords i).toReal - (l.start.coords i).toReal)
      ≤ (1 - 1 / 10 ^ 4) * pdist l.end_.real l.start.real ^ 2) :
    ∃ d, l.distanceToPoint p = some d ∧ d.IsFinite ∧ 0 ≤ d.toReal ∧
      ∀ s, 0 ≤ s → s ≤ 1 → d.toReal
        ≤ (1 + 1 / 10 ^ 15) * pdist (l.real.eval s) p.real + 1 / 10 ^ 13 * M + 1 / 10 ^ 25 :=
  line_numbers rfl rfl (binary64_eta cosI acosI powI)
    (binary64_max cosI acosI powI) l p hM hM' hs hd hp hlong hproj

/-- Long baselines pass the test for short ones. -/
theorem baseline_long (l : LineSegment (PointN (Fl (binary64 cosI acosI powI)) 2)) {M : ℝ}
    (hM : 0 ≤ M) (hM' : M ≤ 10 ^ 9) (hs : BoundedBy M l.start) (hd : BoundedBy M l.end_)
    (hlong : 1 ≤ pdist l.end_.real l.start.real) :
    Scalar.lt (Point.squaredLength (l.start - l.end_) : Fl (binary64 cosI acosI powI))
      Scalar.epsilon = false := by
  have hu : (binary64 cosI acosI powI).u = 2 ^ (-(53 : ℕ) : ℤ) := rfl
  have heps : (binary64 cosI acosI powI).epsilon = 2 ^ (1 - (53 : ℕ) : ℤ) := rfl
  have heta := binary64_eta cosI acosI powI
  have hmx := binary64_max cosI acosI powI
  revert l
  generalize binary64 cosI acosI powI = F at *
  intro l hs hd hlong
  rw [pdist_comm, pdist_vec] at hlong
  have e0 := F.eta_nonneg
  have u0 := F.u_nonneg
  have g3 : (1 + F.u) ^ (2 + 1) ≤ 2 := by rw [hu]; norm_num
  have g2 : (1 + F.u) ^ 2 ≤ 2 := by rw [hu]; norm_num
  have hB : 5 / 2 * M + 1 ≤ 10 ^ 10 := by norm_num at hM' ⊢; linarith
  have hL1 : (1 : ℝ) ≤ ‖vec fun i => (l.start.coords i).toReal - (l.end_.coords i).toReal‖ ^ 2 :=
    one_le_pow₀ hlong
  obtain ⟨_, l2, _, h', _, el2, _, dl2⟩ := dot_length_error ⟨l.end_, l.start⟩ l.start hM
    (by rw [hu]; norm_num) (heta.trans (by norm_num)) hd hs hs
    (hB.trans (le_trans (by norm_num) hmx))
    (by
      have a0 : (5 / 2 * M + 1) ^ 2 ≤ 10 ^ 20 := by
        calc (5 / 2 * M + 1) ^ 2 ≤ (10 ^ 10) ^ 2 := pow_le_pow_left₀ (by positivity) hB 2
          _ = 10 ^ 20 := by norm_num
      have a1 : (1 + F.u) ^ (2 + 1) * (((2 : ℕ) : ℝ) * (5 / 2 * M + 1) ^ 2)
          ≤ 2 * (2 * 10 ^ 20) := by
        apply mul_le_mul g3 _ (by positivity) (by norm_num)
        push_cast
        linarith
      have a2 : 2 * ((2 : ℕ) : ℝ) * (1 + F.u) ^ 2 * F.eta ≤ 8 * 1 := by
        apply mul_le_mul _ (heta.trans (by norm_num)) e0 (by norm_num)
        push_cast
        linarith
      have : (2 : ℝ) * (2 * 10 ^ 20) + 8 * 1 ≤ 10 ^ 60 := by norm_num
      exact (add_le_add a1 a2).trans (this.trans hmx))
    (by rw [hu]; norm_num)
    (by
      rw [heps, hu]
      refine le_trans (mul_le_mul_of_nonneg_left heta (by norm_num)) ?_
      norm_num)
    rfl rfl
    (by rw [heps]; exact le_trans (by norm_num) hL1)
  have hle : F.epsilon ≤ l2 := by
    have dl2' : |l2 - ‖vec fun i => (l.start.coords i).toReal - (l.end_.coords i).toReal‖ ^ 2|
      ≤ 2 * ((2 + 4 : ℕ) : ℝ) * F.u
        * ‖vec fun i => (l.start.coords i).toReal - (l.end_.coords i).toReal‖ ^ 2 := dl2
    generalize ‖vec fun i => (l.start.coords i).toReal - (l.end_.coords i).toReal‖ ^ 2 = X at *
    have a := neg_abs_le (l2 - X)
    have b : 2 * ((2 + 4 : ℕ) : ℝ) * F.u ≤ 1 / 2 := by rw [hu]; norm_num
    have c := dl2'.trans (mul_le_mul_of_nonneg_right b (by linarith))
    have d : F.epsilon ≤ 1 / 2 := by rw [heps]; norm_num
    linarith
  have el2' : (Point.squaredLength (l.start - l.end_) : Fl F) = fin l2 h' := el2
  rw [el2', epsilon_eq]
  by_contra hc
  rw [Bool.not_eq_false] at hc
  simp only [lt_fin] at hc
  linarith

/-- The control point `p` is flat enough with respect to the segment `l`: it projects before
99.99 % of it, and its distance from some point of the segment, enlarged by the rounding error, is
at most the tolerance. -/
def FlatEnough {F : FloatFormat} (M tol : ℝ) (l : LineSegment (PointN (Fl F) 2))
    (p : PointN (Fl F) 2) : Prop :=
  ∑ i, ((p.coords i).toReal - (l.start.coords i).toReal)
        * ((l.end_.coords i).toReal - (l.start.coords i).toReal)
      ≤ (1 - 1 / 10 ^ 4) * pdist l.end_.real l.start.real ^ 2 ∧
  ∃ s, 0 ≤ s ∧ s ≤ 1 ∧
    (1 + 1 / 10 ^ 15) * pdist (l.real.eval s) p.real + 1 / 10 ^ 13 * M + 1 / 10 ^ 25 ≤ tol

theorem flat_test {l : LineSegment (PointN (Fl (binary64 cosI acosI powI)) 2)}
    {p : PointN (Fl (binary64 cosI acosI powI)) 2} {M : ℝ} (hM : 0 ≤ M) (hM' : M ≤ 10 ^ 9)
    (hs : BoundedBy M l.start) (hd : BoundedBy M l.end_)
    (hp : BoundedBy M p) (hlong : 1 ≤ pdist l.end_.real l.start.real)
    {tol : Fl (binary64 cosI acosI powI)} (htol : tol.IsFinite)
    (h : FlatEnough M tol.toReal l p) :
    ∃ d, l.distanceToPoint p = some d ∧ Scalar.le d tol = true := by
  obtain ⟨hproj, s, s0, s1, hx⟩ := h
  obtain ⟨d, hd1, df, _, hle⟩ := C89_line_binary64 cosI acosI powI l p hM hM' hs hd hp hlong hproj
  refine ⟨d, hd1, ?_⟩
  obtain ⟨r, hr, rfl⟩ := isFinite_iff.1 df
  obtain ⟨r', hr', rfl⟩ := isFinite_iff.1 htol
  simp only [le_fin]
  exact (hle s s0 s1).trans hx

/-- **C89**, completeness of `QuadraticBezier::is_linear` in `f64`: a curve whose baseline has
length at least 1 and whose control point is flat enough passes the test. -/
theorem C89_quadratic_is_linear_complete
    (q : QuadraticBezier (PointN (Fl (binary64 cosI acosI powI)) 2)) {M : ℝ} (hM : 0 ≤ M)
    (hM' : M ≤ 10 ^ 9) (hs : BoundedBy M q.start) (hc : BoundedBy M q.ctrl)
    (hd : BoundedBy M q.end_) (hlong : 1 ≤ pdist q.end_.real q.start.real)
    {tol : Fl (binary64 cosI acosI powI)} (htol : tol.IsFinite)
    (h : FlatEnough M tol.toReal ⟨q.start, q.end_⟩ q.ctrl) : q.isLinear tol = some true := by
  obtain ⟨d, hd1, hle⟩ := flat_test cosI acosI powI (l := ⟨q.start, q.end_⟩) hM hM' hs hd hc hlong htol h
  unfold QuadraticBezier.isLinear QuadraticBezier.arePointsColinear QuadraticBezier.baseline
  rw [baseline_long cosI acosI powI ⟨q.start, q.end_⟩ hM hM' hs hd hlong]
  simp only [Bool.false_eq_true, if_false]
  rw [hd1]
  simp only [Option.bind_eq_bind, Option.bind_some, Option.pure_def, hle]

/-- **C89**, completeness of `CubicBezier::is_linear` in `f64`. -/
theorem C89_cubic_is_linear_complete
    (c : CubicBezier (PointN (Fl (binary64 cosI acosI powI)) 2)) {M : ℝ} (hM : 0 ≤ M)
    (hM' : M ≤ 10 ^ 9) (hs : BoundedBy M c.start) (hc1 : BoundedBy M c.ctrl1)
    (hc2 : BoundedBy M c.ctrl2)
    (hd : BoundedBy M c.end_) (hlong : 1 ≤ pdist c.end_.real c.start.real)
    {tol : Fl (binary64 cosI acosI powI)} (htol : tol.IsFinite)
    (h1 : FlatEnough M tol.toReal ⟨c.start, c.end_⟩ c.ctrl1)
    (h2 : FlatEnough M tol.toReal ⟨c.start, c.end_⟩ c.ctrl2) : c.isLinear tol = some true := by
  obtain ⟨d, hd1, hle⟩ := flat_test cosI acosI powI (l := ⟨c.start, c.end_⟩) hM hM' hs hd hc1 hlong htol h1
  obtain ⟨d', hd2, hle'⟩ := flat_test cosI acosI powI (l := ⟨c.start, c.end_⟩) hM hM' hs hd hc2 hlong htol h2
  unfold CubicBezier.isLinear CubicBezier.arePointsColinear CubicBezier.baseline
  rw [baseline_long cosI acosI powI ⟨c.start, c.end_⟩ hM hM' hs hd hlong]
  simp only [Bool.false_eq_true, if_false]
  rw [hd1, hd2]
  simp only [Option.bind_eq_bind, Option.bind_some, Option.pure_def, hle, hle', if_true]

/-- Points with small integer coordinates, for the examples. -/
noncomputable def smallPoint (a b : Fin 11) : PointN (Fl (binary64 cosI acosI powI)) 2 :=
  ⟨![fin (((a : ℕ) : ℤ) : ℝ) (FloatFormat.int_ok _ _ (by
        rw [abs_of_nonneg (by positivity)]; have := a.2; omega)),
     fin (((b : ℕ) : ℤ) : ℝ) (FloatFormat.int_ok _ _ (by
        rw [abs_of_nonneg (by positivity)]; have := b.2; omega))]⟩

theorem smallPoint_zero (a b : Fin 11) :
    ((smallPoint cosI acosI powI a b).coords 0).toReal = (a : ℕ) := by
  show (((a : ℕ) : ℤ) : ℝ) = _
  push_cast; rfl

theorem smallPoint_one (a b : Fin 11) :
    ((smallPoint cosI acosI powI a b).coords 1).toReal = (b : ℕ) := by
  show (((b : ℕ) : ℤ) : ℝ) = _
  push_cast; rfl

theorem smallPoint_bounded (a b : Fin 11) : BoundedBy 10 (smallPoint cosI acosI powI a b) := by
  intro i
  fin_cases i
  · refine ⟨trivial, ?_⟩
    show |((smallPoint cosI acosI powI a b).coords 0).toReal| ≤ 10
    rw [smallPoint_zero, abs_of_nonneg (by positivity)]
    exact_mod_cast Nat.le_of_lt_succ a.2
  · refine ⟨trivial, ?_⟩
    show |((smallPoint cosI acosI powI a b).coords 1).toReal| ≤ 10
    rw [smallPoint_one, abs_of_nonneg (by positivity)]
    exact_mod_cast Nat.le_of_lt_succ b.2

theorem smallPoint_dist : pdist (smallPoint cosI acosI powI 4 0).real
    (smallPoint cosI acosI powI 0 0).real = 4 := by
  rw [pdist_vec, norm_vec]
  rw [show (4 : ℝ) = Real.sqrt (4 ^ 2) by rw [Real.sqrt_sq (by norm_num)]]
  congr 1
  rw [Fin.sum_univ_two]
  simp only [PointN.real, smallPoint_zero, smallPoint_one]
  norm_num

theorem smallPoint_near : pdist ((⟨smallPoint cosI acosI powI 0 0, smallPoint cosI acosI powI 4 0⟩
    : LineSegment _).real.eval (1 / 2 : ℝ)) (smallPoint cosI acosI powI 2 1).real = 1 := by
  rw [line_pdist, show ∀ a b : Fin 2 → ℝ, vec a - (1 / 2 : ℝ) • vec b
    = vec (fun i => a i - 1 / 2 * b i) from fun a b => rfl, norm_vec,
    Real.sqrt_eq_one, Fin.sum_univ_two]
  simp only [smallPoint_zero, smallPoint_one]
  norm_num

theorem smallPoint_flat : FlatEnough 10 2
    (⟨smallPoint cosI acosI powI 0 0, smallPoint cosI acosI powI 4 0⟩ : LineSegment _)
    (smallPoint cosI acosI powI 2 1) := by
  refine ⟨?_, 1 / 2, by norm_num, by norm_num, ?_⟩
  · simp only [Fin.sum_univ_two, smallPoint_zero, smallPoint_one, smallPoint_dist]
    norm_num
  · rw [smallPoint_near]; norm_num

/-- The hypotheses of `C89_line_binary64` are satisfiable: the segment from (0,0) to (4,0) and the
point (2,3). -/
example : ∃ (l : LineSegment (PointN (Fl (binary64 cosI acosI powI)) 2))
    (p : PointN (Fl (binary64 cosI acosI powI)) 2), BoundedBy 10 l.start ∧ BoundedBy 10 l.end_ ∧
    BoundedBy 10 p ∧ 1 ≤ pdist l.end_.real l.start.real ∧
    ∑ i, ((p.coords i).toReal - (l.start.coords i).toReal)
        * ((l.end_.coords i).toReal - (l.start.coords i).toReal)
      ≤ (1 - 1 / 10 ^ 4) * pdist l.end_.real l.start.real ^ 2 := by
  refine ⟨⟨smallPoint cosI acosI powI 0 0, smallPoint cosI acosI powI 4 0⟩,
    smallPoint cosI acosI powI 2 3, smallPoint_bounded _ _ _ _ _, smallPoint_bounded _ _ _ _ _,
    smallPoint_bounded _ _ _ _ _, ?_, ?_⟩
  · simp only [smallPoint_dist]; norm_num
  · simp only [Fin.sum_univ_two, smallPoint_zero, smallPoint_one, smallPoint_dist]
    norm_num

/-- A curve that passes `is_linear`, so the hypotheses of the theorems above and of
`C89_quadratic_is_linear` are satisfiable: (0,0), (2,1), (4,0) with tolerance 2. -/
example : ∃ (q : QuadraticBezier (PointN (Fl (binary64 cosI acosI powI)) 2))
    (tol : Fl (binary64 cosI acosI powI)), BoundedBy 10 q.start ∧ BoundedBy 10 q.ctrl ∧
    BoundedBy 10 q.end_ ∧ tol.IsFinite ∧ 1 ≤ pdist q.end_.real q.start.real ∧
    FlatEnough 10 tol.toReal ⟨q.start, q.end_⟩ q.ctrl ∧ q.isLinear tol = some true := by
  have h2 : (2 : ℝ) ∈ (binary64 cosI acosI powI).grid ∧
      |(2 : ℝ)| ≤ (binary64 cosI acosI powI).max := by
    have := FloatFormat.int_ok (F := binary64 cosI acosI powI) 2 (by norm_num)
    simpa using this
  have hl : 1 ≤ pdist (smallPoint cosI acosI powI 4 0).real
      (smallPoint cosI acosI powI 0 0).real := by rw [smallPoint_dist]; norm_num
  refine ⟨⟨smallPoint cosI acosI powI 0 0, smallPoint cosI acosI powI 2 1,
    smallPoint cosI acosI powI 4 0⟩, fin 2 h2, smallPoint_bounded _ _ _ _ _,
    smallPoint_bounded _ _ _ _ _, smallPoint_bounded _ _ _ _ _, trivial, hl,
    smallPoint_flat cosI acosI powI, ?_⟩
  exact C89_quadratic_is_linear_complete cosI acosI powI
    ⟨smallPoint cosI acosI powI 0 0, smallPoint cosI acosI powI 2 1,
    smallPoint cosI acosI powI 4 0⟩ (M := 10) (tol := fin 2 h2) (by norm_num) (by norm_num)
    (smallPoint_bounded _ _ _ _ _) (smallPoint_bounded _ _ _ _ _) (smallPoint_bounded _ _ _ _ _)
    hl trivial (smallPoint_flat cosI acosI powI)

end Binary64

end Stroke
