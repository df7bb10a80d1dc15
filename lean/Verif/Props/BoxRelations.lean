import Verif.Props.BoundingBox
import Verif.Props.Bezier

set_option linter.unusedSectionVars false

/-!
# Relations between bounding boxes (C70)

Against the control points, against the boxes of the parts of a split, and under translation.
-/

namespace Stroke

variable {P : Type} [Point ℝ P] [LawfulPoint P]

/-! ### The control points -/

theorem exists_le_of_convex {ι : Type} [Fintype ι] {w x : ι → ℝ} (hw : ∀ k, 0 ≤ w k)
    (h1 : ∑ k, w k = 1) : ∃ k, x k ≤ ∑ k, w k * x k := by
  by_contra hcon
  push Not at hcon
  have h2 : ∑ k, w k * (x k - ∑ j, w j * x j) = 0 := by
    simp only [mul_sub, Finset.sum_sub_distrib]
    rw [← Finset.sum_mul, h1, one_mul, sub_self]
  have h3 : ∀ k ∈ Finset.univ, w k * (x k - ∑ j, w j * x j) = 0 := by
    rw [← Finset.sum_eq_zero_iff_of_nonneg]
    · exact h2
    · intro k _
      exact mul_nonneg (hw k) (sub_nonneg.2 (hcon k).le)
  have h4 : ∀ k, w k = 0 := fun k =>
    (mul_eq_zero.1 (h3 k (Finset.mem_univ k))).resolve_right (sub_pos.2 (hcon k)).ne'
  simp [h4] at h1

theorem exists_ge_of_convex {ι : Type} [Fintype ι] {w x : ι → ℝ} (hw : ∀ k, 0 ≤ w k)
    (h1 : ∑ k, w k = 1) : ∃ k, ∑ k, w k * x k ≤ x k := by
  obtain ⟨k, hk⟩ := exists_le_of_convex (x := fun k => -x k) hw h1
  refine ⟨k, ?_⟩
  simp only [mul_neg, Finset.sum_neg_distrib] at hk
  linarith

/-- **C70**: the box of a quadratic curve lies inside the box of its control points. -/
theorem C70_control_box_quadratic (q : QuadraticBezier P) :
    ∃ box, q.boundingBox = some box ∧ ∀ i : Fin (Point.dim P),
      (∃ p ∈ q.controlPoints, coord p i ≤ (box i).1) ∧
      (∃ p ∈ q.controlPoints, (box i).2 ≤ coord p i) := by
  obtain ⟨box, hbox, h⟩ := C14_tight q
  refine ⟨box, hbox, fun i => ?_⟩
  obtain ⟨_, ⟨s, s0, s1, hs⟩, ⟨t, t0, t1, ht⟩⟩ := h i
  simp only at hs ht
  rw [← hs, ← ht]
  obtain ⟨a1, a2, a3⟩ := (C36_specialised ⟨q.start, q.end_⟩ q
    ⟨q.start, q.ctrl, q.ctrl, q.end_⟩ s s0 s1).2.1
  obtain ⟨b1, b2, b3⟩ := (C36_specialised ⟨q.start, q.end_⟩ q
    ⟨q.start, q.ctrl, q.ctrl, q.end_⟩ t t0 t1).2.1
  rw [a3, b3]
  constructor
  · obtain ⟨k, hk⟩ := exists_le_of_convex a1 a2
      (x := fun k => coord (![q.start, q.ctrl, q.end_] k) i)
    exact ⟨_, by fin_cases k <;> simp [QuadraticBezier.controlPoints], hk⟩
  · obtain ⟨k, hk⟩ := exists_ge_of_convex b1 b2
      (x := fun k => coord (![q.start, q.ctrl, q.end_] k) i)
    exact ⟨_, by fin_cases k <;> simp [QuadraticBezier.controlPoints], hk⟩

/-- **C70**: the box of a cubic curve lies inside the box of its control points. -/
theorem C70_control_box_cubic (c : CubicBezier P) :
    ∃ box, c.boundingBox = some box ∧ ∀ i : Fin (Point.dim P),
      (∃ p ∈ c.controlPoints, coord p i ≤ (box i).1) ∧
      (∃ p ∈ c.controlPoints, (box i).2 ≤ coord p i) := by
  obtain ⟨box, hbox, h⟩ := C25_tight c
  refine ⟨box, hbox, fun i => ?_⟩
  obtain ⟨_, ⟨s, s0, s1, hs⟩, ⟨t, t0, t1, ht⟩⟩ := h i
  simp only at hs ht
  rw [← hs, ← ht]
  obtain ⟨a1, a2, a3⟩ := (C36_specialised ⟨c.start, c.end_⟩ ⟨c.start, c.ctrl1, c.end_⟩ c
    s s0 s1).2.2
  obtain ⟨b1, b2, b3⟩ := (C36_specialised ⟨c.start, c.end_⟩ ⟨c.start, c.ctrl1, c.end_⟩ c
    t t0 t1).2.2
  rw [a3, b3]
  constructor
  · obtain ⟨k, hk⟩ := exists_le_of_convex a1 a2
      (x := fun k => coord (![c.start, c.ctrl1, c.ctrl2, c.end_] k) i)
    exact ⟨_, by fin_cases k <;> simp [CubicBezier.controlPoints], hk⟩
  · obtain ⟨k, hk⟩ := exists_ge_of_convex b1 b2
      (x := fun k => coord (![c.start, c.ctrl1, c.ctrl2, c.end_] k) i)
    exact ⟨_, by fin_cases k <;> simp [CubicBezier.controlPoints], hk⟩

/-! ### The parts of a split -/

/-- If `g` is a reparametrised part of `f`, a box of `f` contains a tight box of `g`. -/
theorem part_inside {f g : ℝ → ℝ} {lo hi lo' hi' e : ℝ} {φ : ℝ → ℝ}
    (hf : ContainsRange f (lo - e) (hi + e)) (hg : AttainsEnds g lo' hi')
    (hφ : ∀ s, 0 ≤ s → s ≤ 1 → 0 ≤ φ s ∧ φ s ≤ 1) (he : ∀ s, g s = f (φ s)) :
    lo - e ≤ lo' ∧ hi' ≤ hi + e := by
  obtain ⟨⟨s, s0, s1, rfl⟩, ⟨t, t0, t1, rfl⟩⟩ := hg
  rw [he, he]
  exact ⟨(hf _ (hφ s s0 s1).1 (hφ s s0 s1).2).1, (hf _ (hφ t t0 t1).1 (hφ t t0 t1).2).2⟩

/-- Conversely, the boxes of the two parts together cover a tight box of the whole. -/
theorem whole_inside {f g h : ℝ → ℝ} {lo hi l1 h1 l2 h2 e t : ℝ} (t0 : 0 ≤ t) (t1 : t ≤ 1)
    (hf : AttainsEnds f lo hi) (hg : ContainsRange g (l1 - e) (h1 + e))
    (hh : ContainsRange h (l2 - e) (h2 + e)) (eg : ∀ s, g s = f (t * s))
    (eh : ∀ s, h s = f (t + (1 - t) * s)) :
    min l1 l2 - e ≤ lo ∧ hi ≤ max h1 h2 + e := by
  have key : ∀ u, 0 ≤ u → u ≤ 1 → min l1 l2 - e ≤ f u ∧ f u ≤ max h1 h2 + e := by
    intro u u0 u1
    have m1 := min_le_left l1 l2
    have m2 := min_le_right l1 l2
    have m3 := le_max_left h1 h2
    have m4 := le_max_right h1 h2
    rcases le_total u t with hle | hle
    · rcases eq_or_lt_of_le t0 with h0 | h0
      · have hu : u = 0 := by linarith
        have := hg 0 le_rfl zero_le_one
        rw [eg, mul_zero, ← hu] at this
        constructor <;> linarith
      · have := hg (u / t) (by positivity) ((div_le_one h0).2 hle)
        rw [eg, mul_div_cancel₀ _ h0.ne'] at this
        constructor <;> linarith
    · rcases eq_or_lt_of_le t1 with h0 | h0
      · have hu : u = 1 := by linarith
        have := hh 1 zero_le_one le_rfl
        rw [eh, mul_one, add_sub_cancel, ← hu] at this
        constructor <;> linarith
      · have h0' : 0 < 1 - t := by linarith
        have := hh ((u - t) / (1 - t)) (div_nonneg (by linarith) h0'.le)
          ((div_le_one h0').2 (by linarith))
        rw [eh, mul_div_cancel₀ _ h0'.ne', add_sub_cancel] at this
        constructor <;> linarith
  obtain ⟨⟨s, s0, s1, rfl⟩, ⟨u, u0, u1, rfl⟩⟩ := hf
  exact ⟨(key s s0 s1).1, (key u u0 u1).2⟩

theorem part_left {t : ℝ} (t0 : 0 ≤ t) (t1 : t ≤ 1) (s : ℝ) (s0 : 0 ≤ s) (s1 : s ≤ 1) :
    0 ≤ t * s ∧ t * s ≤ 1 := ⟨by positivity, by nlinarith⟩

theorem part_right {t : ℝ} (t0 : 0 ≤ t) (t1 : t ≤ 1) (s : ℝ) (s0 : 0 ≤ s) (s1 : s ≤ 1) :
    0 ≤ t + (1 - t) * s ∧ t + (1 - t) * s ≤ 1 := ⟨by nlinarith, by nlinarith⟩

/-- **C70**: the boxes of the two parts of `split(t)` lie inside the box of the curve, and
together they cover it, up to EPSILON/8. -/
theorem C70_split_quadratic (q : QuadraticBezier P) (t : ℝ) (t0 : 0 ≤ t) (t1 : t ≤ 1) :
    ∃ box left right, q.boundingBox = some box ∧ (q.split t).1.boundingBox = some left ∧
      (q.split t).2.boundingBox = some right ∧ ∀ i : Fin (Point.dim P),
      ((box i).1 - eps / 8 ≤ (left i).1 ∧ (left i).2 ≤ (box i).2 + eps / 8) ∧
      ((box i).1 - eps / 8 ≤ (right i).1 ∧ (right i).2 ≤ (box i).2 + eps / 8) ∧
      min (left i).1 (right i).1 - eps / 8 ≤ (box i).1 ∧
      (box i).2 ≤ max (left i).2 (right i).2 + eps / 8 := by
  obtain ⟨box, hbox, h⟩ := C14_tight q
  obtain ⟨box', hbox', hc⟩ := C13_contains q
  obtain ⟨left, hl, h1⟩ := C14_tight (q.split t).1
  obtain ⟨left', hl', h1'⟩ := C13_contains (q.split t).1
  obtain ⟨right, hr, h2⟩ := C14_tight (q.split t).2
  obtain ⟨right', hr', h2'⟩ := C13_contains (q.split t).2
  rw [hbox] at hbox'; rw [hl] at hl'; rw [hr] at hr'
  cases hbox'; cases hl'; cases hr'
  have e1 : ∀ (i : ℕ) (s : ℝ), coord ((q.split t).1.eval s) i = coord (q.eval (t * s)) i :=
    fun i s => by rw [(C11_split q t s).1]
  have e2 : ∀ (i : ℕ) (s : ℝ),
      coord ((q.split t).2.eval s) i = coord (q.eval (t + (1 - t) * s)) i :=
    fun i s => by rw [(C11_split q t s).2]
  exact ⟨box, left, right, hbox, hl, hr, fun i =>
    ⟨part_inside (hc i) (h1 i).2 (part_left t0 t1) (e1 i),
      part_inside (hc i) (h2 i).2 (part_right t0 t1) (e2 i),
      whole_inside t0 t1 (h i).2 (h1' i) (h2' i) (e1 i) (e2 i)⟩⟩

/-- **C70**: as `C70_split_quadratic`, for cubic curves, up to EPSILON/3. -/
theorem C70_split_cubic (c : CubicBezier P) (t : ℝ) (t0 : 0 ≤ t) (t1 : t ≤ 1) :
    ∃ box left right, c.boundingBox = some box ∧ (c.split t).1.boundingBox = some left ∧
      (c.split t).2.boundingBox = some right ∧ ∀ i : Fin (Point.dim P),
      ((box i).1 - eps / 3 ≤ (left i).1 ∧ (left i).2 ≤ (box i).2 + eps / 3) ∧
      ((box i).1 - eps / 3 ≤ (right i).1 ∧ (right i).2 ≤ (box i).2 + eps / 3) ∧
      min (left i).1 (right i).1 - eps / 3 ≤ (box i).1 ∧
      (box i).2 ≤ max (left i).2 (right i).2 + eps / 3 := by
  obtain ⟨box, hbox, h⟩ := C25_tight c
  obtain ⟨box', hbox', hc⟩ := C24_contains c
  obtain ⟨left, hl, h1⟩ := C25_tight (c.split t).1
  obtain ⟨left', hl', h1'⟩ := C24_contains (c.split t).1
  obtain ⟨right, hr, h2⟩ := C25_tight (c.split t).2
  obtain ⟨right', hr', h2'⟩ := C24_contains (c.split t).2
  rw [hbox] at hbox'; rw [hl] at hl'; rw [hr] at hr'
  cases hbox'; cases hl'; cases hr'
  have e1 : ∀ (i : ℕ) (s : ℝ), coord ((c.split t).1.eval s) i = coord (c.eval (t * s)) i :=
    fun i s => by rw [(C21_split c t s).1]
  have e2 : ∀ (i : ℕ) (s : ℝ),
      coord ((c.split t).2.eval s) i = coord (c.eval (t + (1 - t) * s)) i :=
    fun i s => by rw [(C21_split c t s).2]
  exact ⟨box, left, right, hbox, hl, hr, fun i =>
    ⟨part_inside (hc i) (h1 i).2 (part_left t0 t1) (e1 i),
      part_inside (hc i) (h2 i).2 (part_right t0 t1) (e2 i),
      whole_inside t0 t1 (h i).2 (h1' i) (h2' i) (e1 i) (e2 i)⟩⟩

/-! ### Translation -/

theorem attained_shift {f g : ℝ → ℝ} {l : List ℝ} {lo hi lo' hi' d : ℝ}
    (hg : ∀ t, g t = f t + d) (h1 : AttainsAmong f l lo hi) (h2 : AttainsAmong g l lo' hi')
    (f0 : lo ≤ f 0 ∧ f 0 ≤ hi) (f1 : lo ≤ f 1 ∧ f 1 ≤ hi)
    (fr : ∀ r ∈ l, 0 < r → r < 1 → lo ≤ f r ∧ f r ≤ hi)
    (g0 : lo' ≤ g 0 ∧ g 0 ≤ hi') (g1 : lo' ≤ g 1 ∧ g 1 ≤ hi')
    (gr : ∀ r ∈ l, 0 < r → r < 1 → lo' ≤ g r ∧ g r ≤ hi') :
    lo' = lo + d ∧ hi' = hi + d := by
  have kf : ∀ t ∈ 0 :: 1 :: l, 0 ≤ t → t ≤ 1 → lo ≤ f t ∧ f t ≤ hi := by
    intro t ht t0 t1
    rcases eq_or_lt_of_le t0 with rfl | h0
    · exact f0
    rcases eq_or_lt_of_le t1 with rfl | h1
    · exact f1
    simp only [List.mem_cons, h0.ne', h1.ne, false_or] at ht
    exact fr t ht h0 h1
  have kg : ∀ t ∈ 0 :: 1 :: l, 0 ≤ t → t ≤ 1 → lo' ≤ g t ∧ g t ≤ hi' := by
    intro t ht t0 t1
    rcases eq_or_lt_of_le t0 with rfl | h0
    · exact g0
    rcases eq_or_lt_of_le t1 with rfl | h1
    · exact g1
    simp only [List.mem_cons, h0.ne', h1.ne, false_or] at ht
    exact gr t ht h0 h1
  obtain ⟨⟨a, am, a0, a1, ha⟩, ⟨b, bm, b0, b1, hb⟩⟩ := h1
  obtain ⟨⟨a', am', a0', a1', ha'⟩, ⟨b', bm', b0', b1', hb'⟩⟩ := h2
  have x1 := (kg a am a0 a1).1
  have x2 := (kg b bm b0 b1).2
  have x3 := (kf a' am' a0' a1').1
  have x4 := (kf b' bm' b0' b1').2
  rw [hg] at x1 x2 ha' hb'
  constructor <;> linarith

/-- **C70**: translating a quadratic curve translates its box, exactly. -/
theorem C70_translate_quadratic (q : QuadraticBezier P) (v : P) :
    ∃ box box', q.boundingBox = some box ∧
      (QuadraticBezier.new (q.start + v) (q.ctrl + v) (q.end_ + v)).boundingBox = some box' ∧
      ∀ i : Fin (Point.dim P),
        (box' i).1 = (box i).1 + coord v i ∧ (box' i).2 = (box i).2 + coord v i := by
  obtain ⟨box, hbox, h⟩ := quad_boundingBox q
  obtain ⟨box', hbox', h'⟩ := quad_boundingBox
    (QuadraticBezier.new (q.start + v) (q.ctrl + v) (q.end_ + v))
  refine ⟨box, box', hbox, hbox', fun i => ?_⟩
  obtain ⟨a1, a2, a3, a4⟩ := h i
  obtain ⟨b1, b2, b3, b4⟩ := h' i
  have ea : qa (QuadraticBezier.new (q.start + v) (q.ctrl + v) (q.end_ + v)) i = qa q i := by
    simp only [qa, QuadraticBezier.new, coord_add]; ring
  have eb : qb (QuadraticBezier.new (q.start + v) (q.ctrl + v) (q.end_ + v)) i = qb q i := by
    simp only [qb, QuadraticBezier.new, coord_add]; ring
  rw [ea, eb] at b1 b4
  refine attained_shift (fun t => ?_) a1 b1 a2 a3 a4 b2 b3 b4
  simp only [C10_eval, QuadraticBezier.new, coord_add]
  ring

/-- **C70**: translating a cubic curve translates its box, exactly. -/
theorem C70_translate_cubic (c : CubicBezier P) (v : P) :
    ∃ box box', c.boundingBox = some box ∧
      (CubicBezier.new (c.start + v) (c.ctrl1 + v) (c.ctrl2 + v) (c.end_ + v)).boundingBox
        = some box' ∧
      ∀ i : Fin (Point.dim P),
        (box' i).1 = (box i).1 + coord v i ∧ (box' i).2 = (box i).2 + coord v i := by
  obtain ⟨box, hbox, h⟩ := cubic_boundingBox c
  obtain ⟨box', hbox', h'⟩ := cubic_boundingBox
    (CubicBezier.new (c.start + v) (c.ctrl1 + v) (c.ctrl2 + v) (c.end_ + v))
  refine ⟨box, box', hbox, hbox', fun i => ?_⟩
  obtain ⟨a1, a2, a3, a4⟩ := h i
  obtain ⟨b1, b2, b3, b4⟩ := h' i
  have ea : ca (CubicBezier.new (c.start + v) (c.ctrl1 + v) (c.ctrl2 + v) (c.end_ + v)) i
      = ca c i := by
    simp only [ca, CubicBezier.new, coord_add]; ring
  have eb : cb (CubicBezier.new (c.start + v) (c.ctrl1 + v) (c.ctrl2 + v) (c.end_ + v)) i
      = cb c i := by
    simp only [cb, CubicBezier.new, coord_add]; ring
  have ec : cc (CubicBezier.new (c.start + v) (c.ctrl1 + v) (c.ctrl2 + v) (c.end_ + v)) i
      = cc c i := by
    simp only [cc, CubicBezier.new, coord_add]; ring
  rw [ea, eb, ec] at b1 b4
  refine attained_shift (fun t => ?_) a1 b1 a2 a3 a4 b2 b3 b4
  simp only [C20_eval, CubicBezier.new, coord_add]
  ring

end Stroke
