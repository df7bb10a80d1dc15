import Verif.Props.BoxRelations
import Verif.Props.FloatBoxCubic
import Verif.Props.FloatDistance

set_option linter.unusedSectionVars false

/-!
# Culling by bounding boxes (C103)
-/

namespace Stroke

variable {P : Type} [Point ℝ P] [LawfulPoint P]

/-- `box` is the result of `bounding_box` for the curve `f`, of one of the three types that have
bounding boxes. -/
def HasBox (f : ℝ → P) (box : Arr (ℝ × ℝ) (Point.dim P)) : Prop :=
  (∃ l : LineSegment P, l.boundingBox = some box ∧ f = fun t => l.eval t) ∨
  (∃ q : QuadraticBezier P, q.boundingBox = some box ∧ f = fun t => q.eval t) ∨
  (∃ c : CubicBezier P, c.boundingBox = some box ∧ f = fun t => c.eval t)

/-- Distance between two intervals, less `δ` and never negative. -/
noncomputable def intervalGap (a b : ℝ × ℝ) (δ : ℝ) : ℝ := max 0 (max (b.1 - a.2) (a.1 - b.2) - δ)

theorem HasBox.contains {f : ℝ → P} {box : Arr (ℝ × ℝ) (Point.dim P)} (h : HasBox f box)
    (i : Fin (Point.dim P)) {t : ℝ} (h0 : 0 ≤ t) (h1 : t ≤ 1) :
    (box i).1 - eps / 3 ≤ coord (f t) i ∧ coord (f t) i ≤ (box i).2 + eps / 3 := by
  have he := eps_pos
  rcases h with ⟨l, hb, rfl⟩ | ⟨q, hb, rfl⟩ | ⟨c, hb, rfl⟩
  · obtain ⟨b, hb', h⟩ := C09_bounding_box l
    rw [hb] at hb'; cases hb'
    have := (h i).2.1 t h0 h1
    exact ⟨by linarith [this.1], by linarith [this.2]⟩
  · obtain ⟨b, hb', h⟩ := C13_contains q
    rw [hb] at hb'; cases hb'
    have := h i t h0 h1
    exact ⟨by linarith [this.1], by linarith [this.2]⟩
  · obtain ⟨b, hb', h⟩ := C24_contains c
    rw [hb] at hb'; cases hb'
    exact h i t h0 h1

theorem HasBox.attains {f : ℝ → P} {box : Arr (ℝ × ℝ) (Point.dim P)} (h : HasBox f box)
    (i : Fin (Point.dim P)) :
    AttainsEnds (fun t => coord (f t) i) (box i).1 (box i).2 ∧
    Continuous fun t => coord (f t) i := by
  rcases h with ⟨l, hb, rfl⟩ | ⟨q, hb, rfl⟩ | ⟨c, hb, rfl⟩
  · obtain ⟨b, hb', h⟩ := C09_bounding_box l
    rw [hb] at hb'; cases hb'
    refine ⟨(h i).2.2, ?_⟩
    simp only [C05_eval]
    fun_prop
  · obtain ⟨b, hb', h⟩ := C14_tight q
    rw [hb] at hb'; cases hb'
    refine ⟨(h i).2, ?_⟩
    simp only [C10_eval]
    fun_prop
  · obtain ⟨b, hb', h⟩ := C25_tight c
    rw [hb] at hb'; cases hb'
    refine ⟨(h i).2, ?_⟩
    simp only [C20_eval]
    fun_prop

theorem intervalGap_le {a b : ℝ × ℝ} {δ x y : ℝ} (hx : a.1 - δ ≤ x ∧ x ≤ a.2 + δ)
    (hy : b.1 - δ ≤ y ∧ y ≤ b.2 + δ) : intervalGap a b (2 * δ) ≤ |x - y| := by
  unfold intervalGap
  refine max_le (abs_nonneg _) ?_
  rw [sub_le_iff_le_add]
  refine max_le ?_ ?_
  · have := neg_abs_le (x - y)
    linarith [hx.2, hy.1]
  · have := le_abs_self (x - y)
    linarith [hx.1, hy.2]

/-- **C103**: no two points of two curves are closer than their bounding boxes, up to two thirds
of EPSILON on every axis. -/
theorem C103_distance {f g : ℝ → P} {box box' : Arr (ℝ × ℝ) (Point.dim P)} (hf : HasBox f box)
    (hg : HasBox g box') {s t : ℝ} (s0 : 0 ≤ s) (s1 : s ≤ 1) (t0 : 0 ≤ t) (t1 : t ≤ 1) :
    Real.sqrt (∑ i : Fin (Point.dim P), intervalGap (box i) (box' i) (2 * eps / 3) ^ 2)
      ≤ pdist (f s) (g t) := by
  unfold pdist
  refine Real.sqrt_le_sqrt ?_
  rw [← Fin.sum_univ_eq_sum_range (fun i => (coord (f s) i - coord (g t) i) ^ 2)]
  refine Finset.sum_le_sum fun i _ => ?_
  have h := intervalGap_le (hf.contains i s0 s1) (hg.contains i t0 t1)
  rw [show 2 * (eps / 3) = 2 * eps / 3 by ring] at h
  rw [← sq_abs (coord (f s) i - coord (g t) i)]
  exact pow_le_pow_left₀ (le_max_left _ _) h 2

/-- **C103**: if on some axis the boxes are more than two thirds of EPSILON apart, the curves do
not meet. -/
theorem C103_disjoint {f g : ℝ → P} {box box' : Arr (ℝ × ℝ) (Point.dim P)} (hf : HasBox f box)
    (hg : HasBox g box') (i : Fin (Point.dim P)) (hgap : (box i).2 + 2 * eps / 3 < (box' i).1)
    {s t : ℝ} (s0 : 0 ≤ s) (s1 : s ≤ 1) (t0 : 0 ≤ t) (t1 : t ≤ 1) : f s ≠ g t := by
  intro e
  have h1 := (hf.contains i s0 s1).2
  have h2 := (hg.contains i t0 t1).1
  rw [e] at h1
  linarith

/-- **C103** for one point: it is not closer to the curve than to the box, up to a third of
EPSILON on every axis. -/
theorem C103_point {f : ℝ → P} {box : Arr (ℝ × ℝ) (Point.dim P)} (hf : HasBox f box) (p : P)
    {t : ℝ} (t0 : 0 ≤ t) (t1 : t ≤ 1) :
    Real.sqrt (∑ i : Fin (Point.dim P),
      intervalGap (box i) (coord p i, coord p i) (eps / 3) ^ 2) ≤ pdist p (f t) := by
  unfold pdist
  refine Real.sqrt_le_sqrt ?_
  rw [← Fin.sum_univ_eq_sum_range (fun i => (coord p i - coord (f t) i) ^ 2)]
  refine Finset.sum_le_sum fun i _ => ?_
  have h := hf.contains i t0 t1
  have : intervalGap (box i) (coord p i, coord p i) (eps / 3) ≤ |coord p i - coord (f t) i| := by
    unfold intervalGap
    refine max_le (abs_nonneg _) ?_
    rw [sub_le_iff_le_add]
    refine max_le ?_ ?_
    · have := le_abs_self (coord p i - coord (f t) i)
      simp only
      linarith [h.2]
    · have := neg_abs_le (coord p i - coord (f t) i)
      simp only
      linarith [h.1]
  rw [← sq_abs (coord p i - coord (f t) i)]
  exact pow_le_pow_left₀ (le_max_left _ _) this 2

/-- Two continuous functions whose ranges on [0, 1] reach across each other meet. -/
theorem ranges_meet {x y : ℝ → ℝ} (hx : Continuous x) (hy : Continuous y) {a b c d : ℝ}
    (h : AttainsEnds x a b) (h' : AttainsEnds y c d) (h1 : a ≤ d) (h2 : c ≤ b) :
    ∃ s t, (0 ≤ s ∧ s ≤ 1) ∧ (0 ≤ t ∧ t ≤ 1) ∧ x s = y t := by
  obtain ⟨⟨sa, sa0, sa1, ea⟩, sb, sb0, sb1, eb⟩ := h
  obtain ⟨⟨tc, tc0, tc1, ec⟩, td, td0, td1, ed⟩ := h'
  have hpre : IsPreconnected (Set.Icc (0 : ℝ) 1 ×ˢ Set.Icc (0 : ℝ) 1) :=
    isPreconnected_Icc.prod isPreconnected_Icc
  have hcont : Continuous fun p : ℝ × ℝ => x p.1 - y p.2 := by fun_prop
  have hmem := hpre.intermediate_value (a := (sa, td)) (b := (sb, tc))
    ⟨⟨sa0, sa1⟩, ⟨td0, td1⟩⟩ ⟨⟨sb0, sb1⟩, ⟨tc0, tc1⟩⟩ hcont.continuousOn
    (show (0 : ℝ) ∈ Set.Icc (x sa - y td) (x sb - y tc) from
      ⟨by rw [ea, ed]; linarith, by rw [eb, ec]; linarith⟩)
  obtain ⟨⟨s, t⟩, ⟨hs, ht⟩, e⟩ := hmem
  exact ⟨s, t, hs, ht, by simpa [sub_eq_zero] using e⟩

/-- **C103**, the converse on each axis: where the intervals of the two boxes overlap, the two
curves do have points with the same coordinate. -/
theorem C103_overlap {f g : ℝ → P} {box box' : Arr (ℝ × ℝ) (Point.dim P)} (hf : HasBox f box)
    (hg : HasBox g box') (i : Fin (Point.dim P)) (h1 : (box i).1 ≤ (box' i).2)
    (h2 : (box' i).1 ≤ (box i).2) :
    ∃ s t, (0 ≤ s ∧ s ≤ 1) ∧ (0 ≤ t ∧ t ≤ 1) ∧ coord (f s) i = coord (g t) i :=
  ranges_meet (hf.attains i).2 (hg.attains i).2 (hf.attains i).1 (hg.attains i).1 h1 h2

/-- **C103**: every curve has a box, and its diagonal bounds the distance of any two points of the
curve, up to two thirds of EPSILON on every axis. -/
theorem C103_diagonal {f : ℝ → P} {box : Arr (ℝ × ℝ) (Point.dim P)} (hf : HasBox f box)
    {s t : ℝ} (s0 : 0 ≤ s) (s1 : s ≤ 1) (t0 : 0 ≤ t) (t1 : t ≤ 1) :
    pdist (f s) (f t)
      ≤ Real.sqrt (∑ i : Fin (Point.dim P), ((box i).2 - (box i).1 + 2 * eps / 3) ^ 2) := by
  unfold pdist
  refine Real.sqrt_le_sqrt ?_
  rw [← Fin.sum_univ_eq_sum_range (fun i => (coord (f s) i - coord (f t) i) ^ 2)]
  refine Finset.sum_le_sum fun i _ => ?_
  have h1 := hf.contains i s0 s1
  have h2 := hf.contains i t0 t1
  rw [← sq_abs (coord (f s) i - coord (f t) i)]
  refine pow_le_pow_left₀ (abs_nonneg _) ?_ 2
  rw [abs_le]
  constructor <;> linarith [h1.1, h1.2, h2.1, h2.2]

/-- Every curve of the three types has a box. -/
theorem C103_total (l : LineSegment P) (q : QuadraticBezier P) (c : CubicBezier P) :
    (∃ box, HasBox (fun t => l.eval t) box) ∧ (∃ box, HasBox (fun t => q.eval t) box) ∧
    (∃ box, HasBox (fun t => c.eval t) box) := by
  obtain ⟨b1, h1, _⟩ := C09_bounding_box l
  obtain ⟨b2, h2, _⟩ := C13_contains q
  obtain ⟨b3, h3, _⟩ := C24_contains c
  exact ⟨⟨b1, Or.inl ⟨l, h1, rfl⟩⟩, ⟨b2, Or.inr (Or.inl ⟨q, h2, rfl⟩)⟩,
    ⟨b3, Or.inr (Or.inr ⟨c, h3, rfl⟩)⟩⟩

/-- Test: two segments, side by side; the hypotheses of `C103_disjoint` are met. -/
example : ∃ (f g : ℝ → PointN ℝ 2) (box box' : Arr (ℝ × ℝ) (Point.dim (PointN ℝ 2))),
    HasBox f box ∧ HasBox g box' ∧ (box 0).2 + 2 * eps / 3 < (box' 0).1 := by
  obtain ⟨b, hb, h⟩ := C09_bounding_box (LineSegment.new (pt2 0 0) (pt2 1 5))
  obtain ⟨b', hb', h'⟩ := C09_bounding_box (LineSegment.new (pt2 3 0) (pt2 7 1))
  refine ⟨_, _, b, b', Or.inl ⟨_, hb, rfl⟩, Or.inl ⟨_, hb', rfl⟩, ?_⟩
  obtain ⟨_, _, _, s, s0, s1, e⟩ := h 0
  obtain ⟨_, _, ⟨t, t0, t1, e'⟩, _⟩ := h' 0
  rw [← e, ← e']
  have he : (eps : ℝ) < 1 := eps_lt_one
  simp only [C05_eval, LineSegment.new]
  have c1 : coord (pt2 0 0) ((0 : Fin 2) : ℕ) = 0 := coord_pt2_0 _ _
  have c2 : coord (pt2 1 5) ((0 : Fin 2) : ℕ) = 1 := coord_pt2_0 _ _
  have c3 : coord (pt2 3 0) ((0 : Fin 2) : ℕ) = 3 := coord_pt2_0 _ _
  have c4 : coord (pt2 7 1) ((0 : Fin 2) : ℕ) = 7 := coord_pt2_0 _ _
  show (1 - s) * coord (pt2 0 0) ((0 : Fin 2) : ℕ) + s * coord (pt2 1 5) ((0 : Fin 2) : ℕ)
      + 2 * eps / 3 < (1 - t) * coord (pt2 3 0) ((0 : Fin 2) : ℕ)
        + t * coord (pt2 7 1) ((0 : Fin 2) : ℕ)
  rw [c1, c2, c3, c4]
  linarith

/-- **C103** in floating point, for quadratic curves: if on some axis the computed boxes are
further apart than the slack of `C84_quadratic`, the (exact) curves do not meet. -/
theorem C103_float_quadratic {F : FloatFormat} {n : ℕ} (q q' : QuadraticBezier (PointN (Fl F) n))
    {M : ℝ} (hu : F.u ≤ 1 / 1024) (hη : 1024 * F.eta ≤ F.epsilon * F.u)
    (hs : BoundedBy M q.start) (hc : BoundedBy M q.ctrl) (hd : BoundedBy M q.end_)
    (hs' : BoundedBy M q'.start) (hc' : BoundedBy M q'.ctrl) (hd' : BoundedBy M q'.end_)
    (hmax : 9 * M + 2 ≤ F.max) (hM : 0 ≤ M) {box box' : Arr (Fl F × Fl F) n}
    (hb : q.boundingBox = some box) (hb' : q'.boundingBox = some box') (i : Fin n)
    (hgap : (box i).2.toReal + 2 * (14 * F.u * M + 9 * F.eta + F.epsilon) < (box' i).1.toReal)
    {s t : ℝ} (s0 : 0 ≤ s) (s1 : s ≤ 1) (t0 : 0 ≤ t) (t1 : t ≤ 1) :
    q.real.eval s ≠ q'.real.eval t := by
  obtain ⟨b, e, h⟩ := C84_quadratic q hu hη hs hc hd hmax hM
  obtain ⟨b', e', h'⟩ := C84_quadratic q' hu hη hs' hc' hd' hmax hM
  have e1 : b = box := Option.some.inj (e.symm.trans hb)
  have e2 : b' = box' := Option.some.inj (e'.symm.trans hb')
  subst e1 e2
  intro heq
  have h1 := ((h i).2.1 s s0 s1).2
  have h2 := ((h' i).2.1 t t0 t1).1
  have hx : coord (q.real.eval s) i = coord (q'.real.eval t) i := by rw [heq]
  rw [C10_eval, C10_eval] at hx
  have c : ∀ p : PointN (Fl F) n, coord p.real (i : ℕ) = (p.coords i).toReal := fun p =>
    coord_pn n (fun j => (p.coords j).toReal) i
  simp only [QuadraticBezier.real, c] at hx
  linarith

/-- **C103** in floating point, for cubic curves that are not nearly quadratic on the axis. -/
theorem C103_float_cubic {F : FloatFormat} {n : ℕ} (q q' : CubicBezier (PointN (Fl F) n))
    {M κ : ℝ} (hu : F.u ≤ 1 / 1024) (hη : F.eta ≤ F.u) (hη2 : F.eta ≤ F.u * M ^ 2)
    (hs : BoundedBy M q.start) (hc₁ : BoundedBy M q.ctrl1) (hc₂ : BoundedBy M q.ctrl2)
    (hd : BoundedBy M q.end_)
    (hs' : BoundedBy M q'.start) (hc₁' : BoundedBy M q'.ctrl1) (hc₂' : BoundedBy M q'.ctrl2)
    (hd' : BoundedBy M q'.end_)
    (hmax : 1330 * M ^ 2 ≤ F.max) (hmax' : 51 * M + 2 ≤ F.max)
    (M0 : 0 ≤ M) (κ0 : 0 < κ) (hκ : 400 * (F.u * M) ≤ κ) {box box' : Arr (Fl F × Fl F) n}
    (hb : q.boundingBox = some box) (hb' : q'.boundingBox = some box') (i : Fin n)
    (hlead : κ ≤ |3 * ((q.end_.coords i).toReal - 3 * (q.ctrl2.coords i).toReal
        + 3 * (q.ctrl1.coords i).toReal - (q.start.coords i).toReal)|)
    (hlead' : κ ≤ |3 * ((q'.end_.coords i).toReal - 3 * (q'.ctrl2.coords i).toReal
        + 3 * (q'.ctrl1.coords i).toReal - (q'.start.coords i).toReal)|)
    (hgap : (box i).2.toReal + 2 * (400 * (F.u * M) + 6200 * (F.u * M ^ 2) / κ + 3 * F.epsilon)
      < (box' i).1.toReal)
    {s t : ℝ} (s0 : 0 ≤ s) (s1 : s ≤ 1) (t0 : 0 ≤ t) (t1 : t ≤ 1) :
    q.real.eval s ≠ q'.real.eval t := by
  obtain ⟨b, e, h⟩ := C84_cubic_conditioned_partial q hu hη hη2 hs hc₁ hc₂ hd hmax hmax' M0 κ0 hκ
  obtain ⟨b', e', h'⟩ := C84_cubic_conditioned_partial q' hu hη hη2 hs' hc₁' hc₂' hd' hmax hmax' M0
    κ0 hκ
  have e1 : b = box := Option.some.inj (e.symm.trans hb)
  have e2 : b' = box' := Option.some.inj (e'.symm.trans hb')
  subst e1 e2
  intro heq
  have h1 := (h i hlead s s0 s1).2
  have h2 := (h' i hlead' t t0 t1).1
  rw [← cubic_real_eval] at h1 h2
  rw [heq] at h1
  linarith

end Stroke
