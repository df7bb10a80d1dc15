import Verif.Props.FloatBox
import Verif.Props.FloatEval

/-!
# Floating point: bounding boxes and the exact curve (C84)

`C13`/`C14`/`C24`/`C25` say, in exact arithmetic, that `bounding_box` is the tightest box around
the curve.  Here: how much of that survives rounding.
-/

set_option linter.unusedSectionVars false

namespace Stroke

variable {F : FloatFormat} {n : ℕ}

open Fl

/-! ### The candidates -/

/-- The values the box of one axis is made of: both end points, and the curve at each root
strictly between 0 and 1. -/
def Candidate (g : Fl F → Fl F) (roots : List (Fl F)) (s e x : Fl F) : Prop :=
  x = s ∨ x = e ∨ ∃ t ∈ roots, (∃ r hr, t = fin r hr ∧ 0 < r ∧ r < 1) ∧ x = g t

/-- Both `bounding_box` loops return the smallest and the largest candidate. -/
theorem candidates {cap : ℕ} {roots : List (Fl F)} {g : Fl F → Fl F} {s e : Fl F}
    (hlen : roots.length + 2 ≤ cap) (hs : s ≠ nan) (he : e ≠ nan)
    (hg : ∀ r hr, 0 < r → r < 1 → g (fin r hr) ≠ nan) :
    ∃ b, (do
      let l ← avExtend cap [] roots
      let l := l.filter fun root => Scalar.lt (lit 0) root && Scalar.lt root (lit 1)
      let l ← l.mapM fun t => some (g t)
      let l ← avPush cap l s
      let l ← avPush cap l e
      let l ← sortUnwrap l
      let lo ← l.head?
      let hi ← l.getLast?
      pure (lo, hi)) = some b ∧
    (∀ x, Candidate g roots s e x → InBox x b) ∧ Candidate g roots s e b.1 ∧
      Candidate g roots s e b.2 := by
  rw [avExtend_le _ _ (by simp; omega)]
  simp only [Option.bind_eq_bind, Option.bind_some, List.nil_append]
  set l := roots.filter fun root => Scalar.lt (lit 0) root && Scalar.lt root (lit 1) with hl
  have hm : (l.mapM fun t => some (g t)) = some (l.map g) := by
    have := List.mapM_pure (m := Option) (l := l) (f := g)
    exact this
  rw [hm]
  simp only [Option.bind_some]
  have hll : l.length ≤ roots.length := List.length_filter_le _ _
  have hmem : ∀ x, x ∈ l.map g ++ [s] ++ [e] ↔ Candidate g roots s e x := by
    intro x
    unfold Candidate
    simp only [List.append_assoc, List.mem_append, List.mem_map, List.mem_cons, List.not_mem_nil,
      or_false]
    constructor
    · rintro (⟨t, ht, rfl⟩ | rfl | rfl)
      · rw [hl, List.mem_filter] at ht
        exact Or.inr (Or.inr ⟨t, ht.1, inside_unit ht.2, rfl⟩)
      · exact Or.inl rfl
      · exact Or.inr (Or.inl rfl)
    · rintro (rfl | rfl | ⟨t, ht, ⟨r, hr, rfl, h0, h1⟩, rfl⟩)
      · exact Or.inr (Or.inl rfl)
      · exact Or.inr (Or.inr rfl)
      · refine Or.inl ⟨_, ?_, rfl⟩
        rw [hl, List.mem_filter]
        refine ⟨ht, ?_⟩
        rw [lit_zero, lit_one, Bool.and_eq_true, lt_fin, lt_fin]
        exact ⟨h0, h1⟩
  have hnn : ∀ x ∈ l.map g, x ≠ nan := by
    intro x hx
    rw [List.mem_map] at hx
    obtain ⟨t, ht, rfl⟩ := hx
    rw [hl, List.mem_filter] at ht
    obtain ⟨r, hr, rfl, h0, h1⟩ := inside_unit ht.2
    exact hg r hr h0 h1
  obtain ⟨b, hb⟩ := tail_total (cap := cap) (l := l.map g) (s := s) (e := e) (by simp; omega)
    hs he hnn
  simp only [Option.bind_eq_bind] at hb
  refine ⟨b, hb, ?_⟩
  simp only [Option.bind_eq_some_iff, Option.pure_def, Option.some.injEq] at hb
  obtain ⟨l1, h1, l2, h2, l3, h3, lo, h4, hi, h5, rfl⟩ := hb
  rw [avPush_eq h1] at h2
  rw [avPush_eq h2] at h3
  obtain ⟨s1, s2, s3, s4⟩ := sortUnwrap_some h3
  have s3 := s3 (by simp)
  obtain ⟨m1, m2, hall⟩ := sorted_ends s4 (fun x hx => s3 x ((s2 x).1 hx)) h4 h5
  exact ⟨fun x hx => hall x ((s2 x).2 ((hmem x).2 hx)), (hmem _).1 ((s2 _).1 m1),
    (hmem _).1 ((s2 _).1 m2)⟩

/-- The box of a quadratic in terms of its candidates. -/
theorem quadratic_box (q : QuadraticBezier (PointN (Fl F) n)) (hs : FinitePoint q.start)
    (he : FinitePoint q.end_)
    (hg : ∀ r hr, 0 < r → r < 1 → FinitePoint (q.evalCasteljau (fin r hr))) :
    ∃ box : Arr (Fl F × Fl F) n, q.boundingBox = some box ∧ ∀ i, ∃ roots,
      q.derivative.root ((q.derivative.start * (lit (-1) : Fl F) + q.derivative.end_).coords i)
        (q.derivative.start.coords i) = some roots ∧
      (∀ x, Candidate (fun t => (q.evalCasteljau t).coords i) roots (q.start.coords i)
        (q.end_.coords i) x → InBox x (box i)) ∧
      Candidate (fun t => (q.evalCasteljau t).coords i) roots (q.start.coords i)
        (q.end_.coords i) (box i).1 ∧
      Candidate (fun t => (q.evalCasteljau t).coords i) roots (q.start.coords i)
        (q.end_.coords i) (box i).2 := by
  have key : ∀ i : Fin n, ∃ v, q.axisBounds q.derivative
      (q.derivative.start * (lit (-1) : Fl F) + q.derivative.end_) q.derivative.start i
      = some v ∧ ∃ roots,
      q.derivative.root ((q.derivative.start * (lit (-1) : Fl F) + q.derivative.end_).coords i)
        (q.derivative.start.coords i) = some roots ∧
      (∀ x, Candidate (fun t => (q.evalCasteljau t).coords i) roots (q.start.coords i)
        (q.end_.coords i) x → InBox x v) ∧
      Candidate (fun t => (q.evalCasteljau t).coords i) roots (q.start.coords i)
        (q.end_.coords i) v.1 ∧
      Candidate (fun t => (q.evalCasteljau t).coords i) roots (q.start.coords i)
        (q.end_.coords i) v.2 := by
    intro i
    have hroot : ∀ a b : Fl F, ∃ l, q.derivative.root a b = some l ∧ l.length ≤ 1 := by
      intro a b
      unfold LineSegment.root
      split_ifs
      · exact ⟨[], rfl, by simp⟩
      · exact ⟨_, rfl, by simp⟩
    obtain ⟨l, hl, hlen⟩ := hroot ((q.derivative.start * (lit (-1) : Fl F)
      + q.derivative.end_).coords i) (q.derivative.start.coords i)
    obtain ⟨b, hb, rest⟩ := candidates (cap := 3) (roots := l)
      (g := fun t => (q.evalCasteljau t).coords i) (s := q.start.coords i) (e := q.end_.coords i)
      (by omega) (ne_nan_of_finite (hs i)) (ne_nan_of_finite (he i))
      (fun r hr h0 h1 => ne_nan_of_finite (hg r hr h0 h1 i))
    refine ⟨b, ?_, l, hl, rest⟩
    unfold QuadraticBezier.axisBounds
    have hax : (fun t => Point.axis (q.evalCasteljau t) (i : ℕ))
        = fun t => some ((q.evalCasteljau t).coords i) := by
      funext t
      exact axis_pointN i.isLt
    rw [axis_pointN i.isLt, axis_pointN i.isLt, axis_pointN i.isLt, axis_pointN i.isLt, hax]
    simp only [Option.bind_eq_bind, Option.bind_some] at hb ⊢
    simp only [Fin.eta]
    rw [hl]
    exact hb
  choose v hv rest using key
  refine ⟨v, ?_, rest⟩
  unfold QuadraticBezier.boundingBox
  simp only []
  rw [show (Point.iter (q.derivative.start * (lit (-1) : Fl F) + q.derivative.end_)).length = n by
    show (PointN.iter _).length = n
    simp [PointN.iter, Arr.toList]]
  refine forRange_fill (n := n) _ _ _ fun i hi b => ?_
  rw [hv ⟨i, hi⟩]
  rfl

/-- The box of a cubic in terms of its candidates. -/
theorem cubic_box (q : CubicBezier (PointN (Fl F) n)) (hs : FinitePoint q.start)
    (he : FinitePoint q.end_)
    (hg : ∀ r hr, 0 < r → r < 1 → FinitePoint (q.evalCasteljau (fin r hr))) :
    ∃ box : Arr (Fl F × Fl F) n, q.boundingBox = some box ∧ ∀ i, ∃ roots,
      q.derivative.realRoots
        ((q.derivative.start + q.derivative.ctrl * (lit (-2) : Fl F)
          + q.derivative.end_).coords i)
        ((q.derivative.start * (lit (-2) : Fl F) + q.derivative.ctrl * (lit 2 : Fl F)).coords i)
        (q.derivative.start.coords i) = some roots ∧
      (∀ x, Candidate (fun t => (q.evalCasteljau t).coords i) roots (q.start.coords i)
        (q.end_.coords i) x → InBox x (box i)) ∧
      Candidate (fun t => (q.evalCasteljau t).coords i) roots (q.start.coords i)
        (q.end_.coords i) (box i).1 ∧
      Candidate (fun t => (q.evalCasteljau t).coords i) roots (q.start.coords i)
        (q.end_.coords i) (box i).2 := by
  have key : ∀ i : Fin n, ∃ v, q.axisBounds q.derivative
      (q.derivative.start + q.derivative.ctrl * (lit (-2) : Fl F) + q.derivative.end_)
      (q.derivative.start * (lit (-2) : Fl F) + q.derivative.ctrl * (lit 2 : Fl F))
      q.derivative.start i = some v ∧ ∃ roots,
      q.derivative.realRoots
        ((q.derivative.start + q.derivative.ctrl * (lit (-2) : Fl F)
          + q.derivative.end_).coords i)
        ((q.derivative.start * (lit (-2) : Fl F) + q.derivative.ctrl * (lit 2 : Fl F)).coords i)
        (q.derivative.start.coords i) = some roots ∧
      (∀ x, Candidate (fun t => (q.evalCasteljau t).coords i) roots (q.start.coords i)
        (q.end_.coords i) x → InBox x v) ∧
      Candidate (fun t => (q.evalCasteljau t).coords i) roots (q.start.coords i)
        (q.end_.coords i) v.1 ∧
      Candidate (fun t => (q.evalCasteljau t).coords i) roots (q.start.coords i)
        (q.end_.coords i) v.2 := by
    intro i
    have hroot : ∀ a b c : Fl F, ∃ l, q.derivative.realRoots a b c = some l ∧ l.length ≤ 2 := by
      intro a b c
      unfold QuadraticBezier.realRoots
      simp only []
      split_ifs
      · exact ⟨[], rfl, by simp⟩
      · exact ⟨_, rfl, by simp⟩
      · exact ⟨_, rfl, by simp⟩
      · exact ⟨_, rfl, by simp⟩
      · exact ⟨_, rfl, by simp⟩
    obtain ⟨l, hl, hlen⟩ := hroot
        ((q.derivative.start + q.derivative.ctrl * (lit (-2) : Fl F)
          + q.derivative.end_).coords i)
        ((q.derivative.start * (lit (-2) : Fl F) + q.derivative.ctrl * (lit 2 : Fl F)).coords i)
        (q.derivative.start.coords i)
    obtain ⟨b, hb, rest⟩ := candidates (cap := 4) (roots := l)
      (g := fun t => (q.evalCasteljau t).coords i) (s := q.start.coords i) (e := q.end_.coords i)
      (by omega) (ne_nan_of_finite (hs i)) (ne_nan_of_finite (he i))
      (fun r hr h0 h1 => ne_nan_of_finite (hg r hr h0 h1 i))
    refine ⟨b, ?_, l, hl, rest⟩
    unfold CubicBezier.axisBounds
    have hax : (fun t => Point.axis (q.evalCasteljau t) (i : ℕ))
        = fun t => some ((q.evalCasteljau t).coords i) := by
      funext t
      exact axis_pointN i.isLt
    rw [axis_pointN i.isLt, axis_pointN i.isLt, axis_pointN i.isLt, axis_pointN i.isLt,
      axis_pointN i.isLt, hax]
    simp only [Option.bind_eq_bind, Option.bind_some] at hb ⊢
    simp only [Fin.eta]
    rw [hl]
    exact hb
  choose v hv rest using key
  refine ⟨v, ?_, rest⟩
  unfold CubicBezier.boundingBox
  simp only []
  rw [show (Point.iter (q.derivative.start + q.derivative.ctrl * (lit (-2) : Fl F)
      + q.derivative.end_)).length = n by
    show (PointN.iter _).length = n
    simp [PointN.iter, Arr.toList]]
  refine forRange_fill (n := n) _ _ _ fun i hi b => ?_
  rw [hv ⟨i, hi⟩]
  rfl

/-! ### The vertex of a quadratic -/

/-- Two derivative control points of opposite sign: rounding moves the vertex by at most `9u`. -/
theorem vertex_ratio {u η ε d0 d1 s a : ℝ} (u0 : 0 ≤ u) (hu : u ≤ 1 / 1024)
    (hη : 1024 * η ≤ ε * u) (hd : d0 * d1 < 0)
    (hs : |s - 2 * d0| ≤ 5 * u * |d0| + 4 * η)
    (ha : |a - 2 * (d1 - d0)| ≤ 8 * u * |d1 - d0| + 10 * η) (hε : ε ≤ |a|) (hε0 : 0 < ε) :
    |-s / a - d0 / (d0 - d1)| ≤ 7 * u ∧ |d0 / (d0 - d1)| ≤ 1 ∧ |-s / a| ≤ 1 + 7 * u := by
  set L := |d1 - d0| with hL
  have hne : d1 - d0 ≠ 0 := by
    intro h
    have : d1 = d0 := by linarith
    rw [this] at hd
    nlinarith [mul_self_nonneg d0]
  have L0 : 0 < L := abs_pos.2 hne
  have hd0 : |d0| ≤ L := by
    rw [hL]
    rcases lt_or_ge d0 0 with h | h
    · have : 0 < d1 := by nlinarith
      rw [abs_of_neg h, abs_of_pos (by linarith)]
      linarith
    · have h' : d1 < 0 := by
        by_contra hc
        push Not at hc
        nlinarith [mul_nonneg h hc]
      rw [abs_of_nonneg h, abs_of_neg (by linarith)]
      linarith
  have a0 : a ≠ 0 := by
    rintro rfl
    rw [abs_zero] at hε
    linarith
  have uL : u * L ≤ 1 / 1024 * L := mul_le_mul_of_nonneg_right hu L0.le
  have uL0 : 0 ≤ u * L := mul_nonneg u0 L0.le
  have ηε : η ≤ ε / 1048576 := by
    have := mul_le_mul_of_nonneg_left hu hε0.le
    linarith
  have ha1 : |a| ≤ 2 * L + (8 * u * L + 10 * η) := by
    have h1 := abs_add_le (a - 2 * (d1 - d0)) (2 * (d1 - d0))
    rw [sub_add_cancel, abs_mul, abs_two] at h1
    linarith
  have ha2 : 2 * L - (8 * u * L + 10 * η) ≤ |a| := by
    have h1 := abs_sub_abs_le_abs_sub (2 * (d1 - d0)) a
    rw [abs_mul, abs_two, abs_sub_comm (2 * (d1 - d0)) a] at h1
    linarith
  have εL : ε ≤ 3 * L := by linarith
  have ηL : 1024 * η ≤ 3 * (u * L) := by
    have := mul_le_mul_of_nonneg_right εL u0
    linarith
  have hs' : |s - 2 * d0| ≤ 51 / 10 * (u * L) := by
    have : u * |d0| ≤ u * L := mul_le_mul_of_nonneg_left hd0 u0
    linarith
  have ha' : |a - 2 * (d1 - d0)| ≤ 81 / 10 * (u * L) := by linarith
  have ha3 : 19 / 10 * L ≤ |a| := by linarith
  have hr : |-s / a - d0 / (d0 - d1)| ≤ 7 * u := by
    have hne' : d0 - d1 ≠ 0 := fun h => hne (by linarith)
    have e : -s / a - d0 / (d0 - d1)
        = (d0 * (a - 2 * (d1 - d0)) - (s - 2 * d0) * (d1 - d0)) / (a * (d1 - d0)) := by
      rw [div_sub_div _ _ a0 hne', div_eq_div_iff (mul_ne_zero a0 hne') (mul_ne_zero a0 hne)]
      ring
    rw [e, abs_div, abs_mul, div_le_iff₀ (by positivity)]
    have h1 : |d0 * (a - 2 * (d1 - d0)) - (s - 2 * d0) * (d1 - d0)|
        ≤ L * (81 / 10 * (u * L)) + 51 / 10 * (u * L) * L := by
      refine (abs_sub _ _).trans ?_
      rw [abs_mul, abs_mul]
      gcongr
    refine h1.trans ?_
    rw [← hL]
    have h2 : 19 / 10 * L * (u * L) ≤ |a| * (u * L) := mul_le_mul_of_nonneg_right ha3 uL0
    have h3 : 0 ≤ u * L * L := mul_nonneg uL0 L0.le
    linarith
  have ht1 : |d0 / (d0 - d1)| ≤ 1 := by
    rw [abs_div, abs_sub_comm, div_le_one (by positivity)]
    exact hd0
  have hra : |-s / a| ≤ 1 + 7 * u := by
    have := abs_add_le (-s / a - d0 / (d0 - d1)) (d0 / (d0 - d1))
    rw [sub_add_cancel] at this
    linarith
  exact ⟨hr, ht1, hra⟩

theorem vertex_error {u η ε v r t : ℝ} (u0 : 0 ≤ u) (hu : u ≤ 1 / 1024) (ε1 : ε ≤ 1)
    (hη : 1024 * η ≤ ε * u) (hr : |r - v| ≤ 7 * u) (hra : |r| ≤ 1 + 7 * u)
    (ht : |t - r| ≤ u * |r| + η) : |t - v| ≤ 9 * u := by
  have h1 := abs_add_le (t - r) (r - v)
  rw [sub_add_sub_cancel] at h1
  have h2 : u * |r| ≤ u * (1 + 7 * u) := mul_le_mul_of_nonneg_left hra u0
  have h3 : u * u ≤ 1 / 1024 * u := mul_le_mul_of_nonneg_right hu u0
  have h4 : ε * u ≤ 1 * u := mul_le_mul_of_nonneg_right ε1 u0
  linarith

/-- The curve in terms of its vertex. -/
theorem vertex_value {d0 d1 t : ℝ} (hd : d0 * d1 < 0) (p0 : ℝ) :
    (p0 + 2 * d0 * t + (d1 - d0) * t ^ 2) - (p0 + d0 * (d0 / (d0 - d1)))
      = (d1 - d0) * (t - d0 / (d0 - d1)) ^ 2 := by
  have hne : d0 - d1 ≠ 0 := by
    intro h
    have : d1 = d0 := by linarith
    rw [this] at hd
    nlinarith [mul_self_nonneg d0]
  field_simp
  ring

/-- Both end points and a value near the vertex are within the bounds: so is the curve. -/
theorem quad_in_hull {p0 p1 p2 lo hi E t : ℝ} (E0 : 0 ≤ E) (t0 : 0 ≤ t) (t1 : t ≤ 1)
    (h0 : lo ≤ p0 ∧ p0 ≤ hi) (h2 : lo ≤ p2 ∧ p2 ≤ hi)
    (hv : (p1 - p0) * (p2 - p1) < 0 → ∃ x, (lo ≤ x ∧ x ≤ hi) ∧
      |x - (p0 + (p1 - p0) * ((p1 - p0) / ((p1 - p0) - (p2 - p1))))| ≤ E) :
    lo - E ≤ (1 - t) ^ 2 * p0 + 2 * t * (1 - t) * p1 + t ^ 2 * p2 ∧
    (1 - t) ^ 2 * p0 + 2 * t * (1 - t) * p1 + t ^ 2 * p2 ≤ hi + E := by
  have e : (1 - t) ^ 2 * p0 + 2 * t * (1 - t) * p1 + t ^ 2 * p2
      = p0 + 2 * (p1 - p0) * t + ((p2 - p1) - (p1 - p0)) * t ^ 2 := by ring
  have e0 : p0 + 2 * (p1 - p0) * t + ((p2 - p1) - (p1 - p0)) * t ^ 2
      = p0 + (p1 - p0) * (t * (2 - t)) + (p2 - p1) * t ^ 2 := by ring
  have e2 : p0 + 2 * (p1 - p0) * t + ((p2 - p1) - (p1 - p0)) * t ^ 2
      = p2 - (p1 - p0) * (1 - t) ^ 2 - (p2 - p1) * (1 - t ^ 2) := by ring
  have q1 : 0 ≤ t * (2 - t) := mul_nonneg t0 (by linarith)
  have q2 : 0 ≤ t ^ 2 := sq_nonneg t
  have q3 : 0 ≤ (1 - t) ^ 2 := sq_nonneg _
  have q4 : 0 ≤ 1 - t ^ 2 := by nlinarith
  have hc : p0 + 2 * (p1 - p0) * t + ((p2 - p1) - (p1 - p0)) * t ^ 2
      = (1 - t) * p0 + t * p2 - ((p2 - p1) - (p1 - p0)) * (t * (1 - t)) := by ring
  have q5 : 0 ≤ t * (1 - t) := mul_nonneg t0 (by linarith)
  have c1 : lo ≤ (1 - t) * p0 + t * p2 := by nlinarith [h0.1, h2.1]
  have c2 : (1 - t) * p0 + t * p2 ≤ hi := by nlinarith [h0.2, h2.2]
  rw [e]
  by_cases hd : (p1 - p0) * (p2 - p1) < 0
  · obtain ⟨x, ⟨x1, x2⟩, hx⟩ := hv hd
    have hvv := vertex_value (t := t) hd p0
    rw [abs_le] at hx
    rcases le_total 0 ((p2 - p1) - (p1 - p0)) with hA | hA
    · have k1 : 0 ≤ ((p2 - p1) - (p1 - p0)) * (t - (p1 - p0) / ((p1 - p0) - (p2 - p1))) ^ 2 :=
        mul_nonneg hA (sq_nonneg _)
      have k2 := mul_nonneg hA q5
      constructor
      · linarith [hx.1, hx.2]
      · rw [hc]; linarith
    · have k1 : ((p2 - p1) - (p1 - p0)) * (t - (p1 - p0) / ((p1 - p0) - (p2 - p1))) ^ 2 ≤ 0 :=
        mul_nonpos_of_nonpos_of_nonneg hA (sq_nonneg _)
      have k2 := mul_nonpos_of_nonpos_of_nonneg hA q5
      constructor
      · rw [hc]; linarith
      · linarith [hx.1, hx.2]
  · push Not at hd
    rcases mul_nonneg_iff.1 hd with ⟨a, b⟩ | ⟨a, b⟩
    · have k1 := mul_nonneg a q1
      have k2 := mul_nonneg b q2
      have k3 := mul_nonneg a q3
      have k4 := mul_nonneg b q4
      constructor
      · rw [e0]; linarith [h0.1]
      · rw [e2]; linarith [h2.2]
    · have k1 := mul_nonpos_of_nonpos_of_nonneg a q1
      have k2 := mul_nonpos_of_nonpos_of_nonneg b q2
      have k3 := mul_nonpos_of_nonpos_of_nonneg a q3
      have k4 := mul_nonpos_of_nonpos_of_nonneg b q4
      constructor
      · rw [e2]; linarith [h2.1]
      · rw [e0]; linarith [h0.2]

/-! ### The derivative of a quadratic in floating point -/

/-- `fl(fl(x - y) * 2)`: finite, with the error `vertex_error` asks for. -/
theorem twice_diff {x y M : ℝ} {hx : x ∈ F.grid ∧ |x| ≤ F.max} {hy : y ∈ F.grid ∧ |y| ≤ F.max}
    (hu : F.u ≤ 1 / 1024) (hη : F.eta ≤ 1 / 1024) (bx : |x| ≤ M) (by' : |y| ≤ M)
    (hmax : 9 * M + 2 ≤ F.max) :
    ∃ s hs, ((fin x hx : Fl F) - fin y hy) * (lit 2 : Fl F) = fin s hs ∧
      |s - 2 * (x - y)| ≤ 5 * F.u * |x - y| + 4 * F.eta := by
  have u0 := F.u_nonneg
  have e0 := F.eta_nonneg
  have M0 : 0 ≤ M := (abs_nonneg x).trans bx
  have hd : |x - y| ≤ 2 * M := (abs_sub _ _).trans (by linarith)
  have d0 := abs_nonneg (x - y)
  rw [fin_sub, F.round_of_le (by linarith), show (lit 2 : Fl F) = fin (2 : ℤ) (F.int_ok 2 (by norm_num))
    from lit_int 2 (by norm_num), fin_mul]
  have r1 := F.rnd_err (x - y)
  have ud : F.u * |x - y| ≤ 1 / 1024 * |x - y| := mul_le_mul_of_nonneg_right hu d0
  have ue : F.u * F.eta ≤ 1 / 1024 * F.eta := mul_le_mul_of_nonneg_right hu e0
  have uud : F.u * (F.u * |x - y|) ≤ 1 / 1024 * (F.u * |x - y|) :=
    mul_le_mul_of_nonneg_right hu (mul_nonneg u0 d0)
  have ud0 : 0 ≤ F.u * |x - y| := mul_nonneg u0 d0
  have hz : |F.rnd (x - y)| ≤ |x - y| + (F.u * |x - y| + F.eta) := by
    have := abs_add_le (F.rnd (x - y) - (x - y)) (x - y)
    rw [sub_add_cancel] at this
    linarith
  have hz2 : |F.rnd (x - y) * ((2 : ℤ) : ℝ)| = 2 * |F.rnd (x - y)| := by
    rw [abs_mul]
    norm_num
    ring
  rw [F.round_of_le (by rw [hz2]; linarith)]
  refine ⟨_, _, rfl, ?_⟩
  have r2 := F.rnd_err (F.rnd (x - y) * ((2 : ℤ) : ℝ))
  rw [hz2] at r2
  have uz := mul_le_mul_of_nonneg_left hz u0
  have h := abs_add_le (F.rnd (F.rnd (x - y) * ((2 : ℤ) : ℝ)) - F.rnd (x - y) * ((2 : ℤ) : ℝ))
    (2 * (F.rnd (x - y) - (x - y)))
  rw [abs_mul, abs_two] at h
  have e : F.rnd (F.rnd (x - y) * ((2 : ℤ) : ℝ)) - F.rnd (x - y) * ((2 : ℤ) : ℝ)
      + 2 * (F.rnd (x - y) - (x - y)) = F.rnd (F.rnd (x - y) * ((2 : ℤ) : ℝ)) - 2 * (x - y) := by
    push_cast
    ring
  rw [e] at h
  linarith

/-- `fl(s * (-1) + e)`. -/
theorem second_diff {s e d0 d1 M : ℝ} {hs : s ∈ F.grid ∧ |s| ≤ F.max}
    {he : e ∈ F.grid ∧ |e| ≤ F.max} (hu : F.u ≤ 1 / 1024) (hη : F.eta ≤ 1 / 1024)
    (es : |s - 2 * d0| ≤ 5 * F.u * |d0| + 4 * F.eta)
    (ee : |e - 2 * d1| ≤ 5 * F.u * |d1| + 4 * F.eta) (b0 : |d0| ≤ 2 * M) (b1 : |d1| ≤ 2 * M)
    (hmax : 9 * M + 2 ≤ F.max) :
    ∃ a ha, (fin s hs : Fl F) * (lit (-1) : Fl F) + fin e he = fin a ha ∧
      (d0 * d1 < 0 → |a - 2 * (d1 - d0)| ≤ 8 * F.u * |d1 - d0| + 10 * F.eta) := by
  have u0 := F.u_nonneg
  have e0 := F.eta_nonneg
  have n0 := abs_nonneg d0
  have n1 := abs_nonneg d1
  have hneg : (fin s hs : Fl F) * (lit (-1) : Fl F)
      = fin (-s) ⟨F.neg_mem s hs.1, by rw [abs_neg]; exact hs.2⟩ := by
    rw [show (lit (-1) : Fl F) = fin ((-1 : ℤ) : ℝ) (F.int_ok (-1) (by norm_num)) from by
      have := lit_int (F := F) (-1) (by norm_num)
      push_cast at this ⊢
      exact this, fin_mul]
    rw [← F.round_of_mem ⟨F.neg_mem s hs.1, by rw [abs_neg]; exact hs.2⟩]
    congr 1
    push_cast
    ring
  rw [hneg, fin_add]
  have u0d : F.u * |d0| ≤ 1 / 1024 * |d0| := mul_le_mul_of_nonneg_right hu n0
  have u1d : F.u * |d1| ≤ 1 / 1024 * |d1| := mul_le_mul_of_nonneg_right hu n1
  have hsum : |(-s + e) - 2 * (d1 - d0)| ≤ 5 * F.u * (|d0| + |d1|) + 8 * F.eta := by
    have h := abs_sub (e - 2 * d1) (s - 2 * d0)
    rw [show e - 2 * d1 - (s - 2 * d0) = (-s + e) - 2 * (d1 - d0) by ring] at h
    linarith
  have hdd : |2 * (d1 - d0)| ≤ 2 * (|d0| + |d1|) := by
    rw [abs_mul, abs_two]
    linarith [abs_sub d1 d0]
  have hse : |-s + e| ≤ |2 * (d1 - d0)| + (5 * F.u * (|d0| + |d1|) + 8 * F.eta) := by
    have h := abs_add_le ((-s + e) - 2 * (d1 - d0)) (2 * (d1 - d0))
    rw [sub_add_cancel] at h
    linarith
  rw [F.round_of_le (by linarith)]
  refine ⟨_, _, rfl, fun hd => ?_⟩
  have hL : |d0| + |d1| = |d1 - d0| := by
    rcases lt_or_ge d0 0 with h | h
    · have : 0 < d1 := by nlinarith
      rw [abs_of_neg h, abs_of_pos this, abs_of_pos (by linarith)]
      ring
    · have h' : d1 < 0 := by
        by_contra hc
        push Not at hc
        nlinarith [mul_nonneg h hc]
      rw [abs_of_nonneg h, abs_of_neg h', abs_of_neg (by linarith)]
      ring
  rw [hL] at hsum hse
  have r := F.rnd_err (-s + e)
  have h := abs_add_le (F.rnd (-s + e) - (-s + e)) ((-s + e) - 2 * (d1 - d0))
  rw [sub_add_sub_cancel] at h
  rw [abs_mul, abs_two] at hse
  have L0 := abs_nonneg (d1 - d0)
  generalize |d1 - d0| = L at *
  have k1 := mul_le_mul_of_nonneg_left hse u0
  have k2 : F.u * (F.u * L) ≤ 1 / 1024 * (F.u * L) :=
    mul_le_mul_of_nonneg_right hu (mul_nonneg u0 L0)
  have k3 : F.u * F.eta ≤ 1 / 1024 * F.eta := mul_le_mul_of_nonneg_right hu e0
  have k4 : 0 ≤ F.u * L := mul_nonneg u0 L0
  linarith

/-- **C84** `QuadraticBezier`: in floating point `bounding_box` returns, for each axis, an
interval of finite floats which contains the exact curve over [0, 1] up to `14 u M + 9 η + ε`,
and whose two ends are within `13 u M + 9 η` of points of the exact curve (`M` bounds the
coordinates, `u` is the unit roundoff, `η` half the smallest positive float, `ε` the machine
epsilon below which the code takes a leading coefficient to be zero). -/
theorem C84_quadratic (q : QuadraticBezier (PointN (Fl F) n)) {M : ℝ}
    (hu : F.u ≤ 1 / 1024) (hη : 1024 * F.eta ≤ F.epsilon * F.u)
    (hs : BoundedBy M q.start) (hc : BoundedBy M q.ctrl) (hd : BoundedBy M q.end_)
    (hmax : 9 * M + 2 ≤ F.max) (hM : 0 ≤ M) :
    ∃ box : Arr (Fl F × Fl F) n, q.boundingBox = some box ∧ ∀ i,
      let curve := fun t : ℝ => (1 - t) ^ 2 * (q.start.coords i).toReal
        + 2 * t * (1 - t) * (q.ctrl.coords i).toReal + t ^ 2 * (q.end_.coords i).toReal
      ((box i).1.IsFinite ∧ (box i).2.IsFinite) ∧
      (∀ t, 0 ≤ t → t ≤ 1 →
        (box i).1.toReal - (14 * F.u * M + 9 * F.eta + F.epsilon) ≤ curve t ∧
        curve t ≤ (box i).2.toReal + (14 * F.u * M + 9 * F.eta + F.epsilon)) ∧
      (∃ t, (0 ≤ t ∧ t ≤ 1) ∧ |(box i).1.toReal - curve t| ≤ 13 * F.u * M + 9 * F.eta) ∧
      (∃ t, (0 ≤ t ∧ t ≤ 1) ∧ |(box i).2.toReal - curve t| ≤ 13 * F.u * M + 9 * F.eta) := by
  have u0 := F.u_nonneg
  have e0 := F.eta_nonneg
  have eps0 := F.epsilon_pos
  have eps1 := F.epsilon_le
  have uM : 0 ≤ F.u * M := mul_nonneg u0 hM
  have he : F.eta ≤ 1 / 1024 := by
    have h1 : F.epsilon * F.u ≤ 1 * F.u := mul_le_mul_of_nonneg_right eps1 u0
    linarith
  have hev : ∀ (r : ℝ) hr, 0 < r → r < 1 → ∀ i, _ := fun r hr h0 h1 i =>
    C67_quadratic_casteljau q (t := r) hr h0.le h1.le hu he hs hc hd (by linarith) i
  obtain ⟨box, hbox, hb⟩ := quadratic_box q (fun i => (hs i).1) (fun i => (hd i).1)
    (fun r hr h0 h1 i => (hev r hr h0 h1 i).1)
  refine ⟨box, hbox, fun i => ?_⟩
  intro curve
  obtain ⟨roots, hroots, hin, hlo, hhi⟩ := hb i
  -- every candidate is finite and close to a point of the curve
  have hcand : ∀ x, Candidate (fun t => (q.evalCasteljau t).coords i) roots (q.start.coords i)
      (q.end_.coords i) x → x.IsFinite ∧
        ∃ t, (0 ≤ t ∧ t ≤ 1) ∧ |x.toReal - curve t| ≤ 13 * F.u * M + 9 * F.eta := by
    rintro x (rfl | rfl | ⟨t, _, ⟨r, hr, rfl, h0, h1⟩, rfl⟩)
    · refine ⟨(hs i).1, 0, ⟨le_rfl, zero_le_one⟩, ?_⟩
      simp only [curve]
      rw [show (q.start.coords i).toReal - ((1 - 0) ^ 2 * (q.start.coords i).toReal
        + 2 * 0 * (1 - 0) * (q.ctrl.coords i).toReal + 0 ^ 2 * (q.end_.coords i).toReal) = 0 by ring,
        abs_zero]
      linarith
    · refine ⟨(hd i).1, 1, ⟨zero_le_one, le_rfl⟩, ?_⟩
      simp only [curve]
      rw [show (q.end_.coords i).toReal - ((1 - 1) ^ 2 * (q.start.coords i).toReal
        + 2 * 1 * (1 - 1) * (q.ctrl.coords i).toReal + 1 ^ 2 * (q.end_.coords i).toReal) = 0 by ring,
        abs_zero]
      linarith
    · exact ⟨(hev r hr h0 h1 i).1, r, ⟨h0.le, h1.le⟩, (hev r hr h0 h1 i).2⟩
  obtain ⟨flo, tlo⟩ := hcand _ hlo
  obtain ⟨fhi, thi⟩ := hcand _ hhi
  refine ⟨⟨flo, fhi⟩, ?_, tlo, thi⟩
  have hin' : ∀ x, Candidate (fun t => (q.evalCasteljau t).coords i) roots (q.start.coords i)
      (q.end_.coords i) x → (box i).1.toReal ≤ x.toReal ∧ x.toReal ≤ (box i).2.toReal := by
    intro x hx
    obtain ⟨h1, h2⟩ := hin x hx
    obtain ⟨a, ha, ea⟩ := isFinite_iff.1 flo
    obtain ⟨b, hb', eb⟩ := isFinite_iff.1 fhi
    obtain ⟨c, hc', ec⟩ := isFinite_iff.1 (hcand x hx).1
    rw [ea, ec, le_fin] at h1
    rw [eb, ec, le_fin] at h2
    rw [ea, eb, ec]
    exact ⟨h1, h2⟩
  intro t t0 t1
  refine quad_in_hull (by linarith) t0 t1 (hin' _ (Or.inl rfl)) (hin' _ (Or.inr (Or.inl rfl))) ?_
  intro hopp
  -- the derivative
  obtain ⟨x0, hx0, ex0⟩ := isFinite_iff.1 (hs i).1
  obtain ⟨x1, hx1, ex1⟩ := isFinite_iff.1 (hc i).1
  obtain ⟨x2, hx2, ex2⟩ := isFinite_iff.1 (hd i).1
  have b0 := (hs i).2
  have b1 := (hc i).2
  have b2 := (hd i).2
  have cs : q.derivative.start.coords i = (q.ctrl.coords i - q.start.coords i) * (lit 2 : Fl F) := rfl
  have ce : q.derivative.end_.coords i = (q.end_.coords i - q.ctrl.coords i) * (lit 2 : Fl F) := rfl
  have ca : (q.derivative.start * (lit (-1) : Fl F) + q.derivative.end_).coords i
      = q.derivative.start.coords i * (lit (-1) : Fl F) + q.derivative.end_.coords i := rfl
  rw [ex0] at b0 hopp ⊢
  rw [ex1] at b1 hopp ⊢
  rw [ex2] at b2 hopp ⊢
  simp only [toReal_fin] at b0 b1 b2 hopp ⊢
  obtain ⟨s, hsf, es, ers⟩ := twice_diff (hx := hx1) (hy := hx0) hu he b1 b0 hmax
  obtain ⟨e, hef, ee, ere⟩ := twice_diff (hx := hx2) (hy := hx1) hu he b2 b1 hmax
  obtain ⟨a, haf, ea, era⟩ := second_diff (hs := hsf) (he := hef) (M := M) hu he ers ere
    ((abs_sub _ _).trans (by linarith)) ((abs_sub _ _).trans (by linarith)) hmax
  have era := era hopp
  rw [ca, cs, ce, ex0, ex1, ex2, es, ee, ea] at hroots
  have vr := vertex_ratio (s := s) (a := a) u0 hu hη hopp ers era
  set d0 := x1 - x0 with hd0
  set d1 := x2 - x1 with hd1
  set v := d0 / (d0 - d1) with hv
  have hne : d0 - d1 ≠ 0 := by
    intro h
    have : d1 = d0 := by linarith
    rw [this] at hopp
    nlinarith [mul_self_nonneg d0]
  have hv01 : 0 ≤ v ∧ v ≤ 1 := by
    rw [hv]
    rcases lt_or_ge d0 0 with h | h
    · have h1 : 0 < d1 := by nlinarith
      constructor
      · exact div_nonneg_of_nonpos h.le (by linarith)
      · rw [div_le_one_of_neg (by linarith)]
        linarith
    · have h' : d1 < 0 := by
        by_contra hc
        push Not at hc
        nlinarith [mul_nonneg h hc]
      constructor
      · exact div_nonneg h (by linarith)
      · rw [div_le_one (by linarith)]
        linarith
  have hLM : |d1 - d0| ≤ 4 * M := by
    have e1 := abs_le.1 b0
    have e2 := abs_le.1 b1
    have e3 := abs_le.1 b2
    rw [abs_le]
    constructor <;> linarith
  have hval := fun t => vertex_value (t := t) hopp x0
  have hcurve : ∀ t, curve t = x0 + 2 * d0 * t + (d1 - d0) * t ^ 2 := by
    intro t
    simp only [curve, ex0, ex1, ex2, toReal_fin, hd0, hd1]
    ring
  -- a parameter as close as `9u` to the vertex gives a value close to the extremum
  have hclose : ∀ t, |t - v| ≤ 9 * F.u → |curve t - (x0 + d0 * v)| ≤ F.u * M := by
    intro t ht
    rw [hcurve, hval, abs_mul, abs_pow]
    have h1 : |t - v| ^ 2 ≤ (9 * F.u) ^ 2 := by gcongr
    have h2 : |d1 - d0| * |t - v| ^ 2 ≤ 4 * M * (9 * F.u) ^ 2 := by gcongr
    have h3 : F.u * (F.u * M) ≤ 1 / 1024 * (F.u * M) := mul_le_mul_of_nonneg_right hu uM
    nlinarith
  unfold LineSegment.root at hroots
  rw [epsilon_eq, show Scalar.abs (fin a haf : Fl F) = fin |a| ⟨by
    rcases abs_choice a with h | h <;> rw [h]
    · exact haf.1
    · exact F.neg_mem _ haf.1, by rw [abs_abs]; exact haf.2⟩ from rfl] at hroots
  by_cases hsm : |a| < F.epsilon
  · -- the leading coefficient is taken to be zero
    refine ⟨x0, by have := hin' _ (Or.inl rfl); rwa [ex0] at this, ?_⟩
    have e1 : x0 - (x0 + d0 * v) = -(d0 * v) := by ring
    have h1 : |d0| = |v| * |d1 - d0| := by
      rw [hv, abs_div, abs_sub_comm d1 d0, div_mul_cancel₀ _ (abs_pos.2 hne).ne']
    have hva : |v| ≤ 1 := by rw [abs_le]; constructor <;> linarith [hv01.1, hv01.2]
    have ha2 : 2 * |d1 - d0| - (8 * F.u * |d1 - d0| + 10 * F.eta) ≤ |a| := by
      have h1 := abs_sub_abs_le_abs_sub (2 * (d1 - d0)) a
      rw [abs_mul, abs_two, abs_sub_comm (2 * (d1 - d0)) a] at h1
      linarith
    have uL : F.u * |d1 - d0| ≤ 1 / 1024 * |d1 - d0| :=
      mul_le_mul_of_nonneg_right hu (abs_nonneg _)
    have ηε : 1024 * F.eta ≤ F.epsilon * (1 / 1024) :=
      hη.trans (mul_le_mul_of_nonneg_left hu eps0.le)
    have L0 := abs_nonneg (d1 - d0)
    have h2 : |d0 * v| ≤ |d1 - d0| := by
      rw [abs_mul, h1]
      calc |v| * |d1 - d0| * |v| ≤ 1 * |d1 - d0| * 1 := by gcongr
        _ = _ := by ring
    rw [e1, abs_neg]
    linarith
  · have hb : ¬ (Scalar.lt (fin |a| ⟨by
        rcases abs_choice a with h | h <;> rw [h]
        · exact haf.1
        · exact F.neg_mem _ haf.1, by rw [abs_abs]; exact haf.2⟩ : Fl F)
        (fin F.epsilon F.epsilon_ok) = true) := by
      rw [lt_fin]; exact hsm
    rw [if_neg hb] at hroots
    push Not at hsm
    obtain ⟨v1, v2, v3⟩ := vr hsm eps0
    have a0 : a ≠ 0 := by
      rintro rfl
      rw [abs_zero] at hsm
      linarith
    have rmax : |-s / a| ≤ F.max := by linarith
    rw [fin_neg, fin_div a0, F.round_of_le rmax] at hroots
    have hroots := avPush_eq hroots
    rw [List.nil_append] at hroots
    have herr := F.rnd_err (-s / a)
    have hclose' := hclose _ (vertex_error u0 hu eps1 hη v1 v3 herr)
    have hnear := vertex_error u0 hu eps1 hη v1 v3 herr
    by_cases h0 : 0 < F.rnd (-s / a)
    · by_cases h1 : F.rnd (-s / a) < 1
      · have hm : Candidate (fun t => (q.evalCasteljau t).coords i) roots (q.start.coords i)
            (q.end_.coords i) _ := Or.inr (Or.inr ⟨fin (F.rnd (-s / a)) ⟨F.rnd_mem _,
              F.abs_rnd_le F.max_mem rmax⟩, by rw [hroots]; simp, ⟨_, _, rfl, h0, h1⟩, rfl⟩)
        refine ⟨_, hin' _ hm, ?_⟩
        have h2 := (hev _ ⟨F.rnd_mem _, F.abs_rnd_le F.max_mem rmax⟩ h0 h1 i).2
        have h3 := abs_add_le _ _ |>.trans (add_le_add h2 hclose')
        rw [sub_add_sub_cancel] at h3
        refine h3.trans ?_
        linarith
      · push Not at h1
        refine ⟨x2, by have := hin' _ (Or.inr (Or.inl rfl)); rwa [ex2] at this, ?_⟩
        have h3 := hclose 1 (by
          rw [abs_le] at hnear ⊢
          constructor <;> linarith [hnear.1, hnear.2, hv01.1, hv01.2])
        rw [hcurve, show x0 + 2 * d0 * 1 + (d1 - d0) * 1 ^ 2 = x2 by rw [hd0, hd1]; ring] at h3
        linarith
    · push Not at h0
      refine ⟨x0, by have := hin' _ (Or.inl rfl); rwa [ex0] at this, ?_⟩
      have h3 := hclose 0 (by
        rw [abs_le] at hnear ⊢
        constructor <;> linarith [hnear.1, hnear.2, hv01.1, hv01.2])
      rw [hcurve, show x0 + 2 * d0 * 0 + (d1 - d0) * 0 ^ 2 = x0 by ring] at h3
      linarith

/-- The hypotheses of `C84_quadratic`: binary64 and binary32, and a curve with an interior
extremum. -/
example (cosI acosI : ℝ → ℝ) (powI : ℝ → ℝ → ℝ) : let F := binary64 cosI acosI powI
    F.u ≤ 1 / 1024 ∧ 1024 * F.eta ≤ F.epsilon * F.u ∧ 9 * (100 : ℝ) + 2 ≤ F.max ∧
    BoundedBy 100 (⟨fun i => lit (if i = 0 then 7 else 100 : ℤ)⟩ : PointN (Fl F) 2) := by
  intro F
  refine ⟨?_, ?_, ?_, fun i => ?_⟩
  · show (2 : ℝ) ^ (-(53 : ℕ) : ℤ) ≤ _
    norm_num
  · show 1024 * (2 : ℝ) ^ ((-1074 : ℤ) - 1) ≤ 2 ^ (1 - ((53 : ℕ) : ℤ)) * 2 ^ (-(53 : ℕ) : ℤ)
    calc 1024 * (2 : ℝ) ^ ((-1074 : ℤ) - 1) ≤ 1024 * 2 ^ (-200 : ℤ) := by
          gcongr
          · norm_num
          · norm_num
      _ ≤ _ := by norm_num
  · linarith [F.max_ge]
  · have h : |(if i = 0 then 7 else 100 : ℤ)| ≤ 100 := by split_ifs <;> norm_num
    have e := lit_int (F := F) (if i = 0 then 7 else 100 : ℤ) (h.trans (by norm_num))
    simp only
    rw [e]
    refine ⟨trivial, ?_⟩
    show |((if i = 0 then 7 else 100 : ℤ) : ℝ)| ≤ 100
    exact_mod_cast h

/-! ### Cubic curves -/

/-- **C84** `CubicBezier`, the part that holds: `bounding_box` returns finite intervals, with
both end points inside, whose two ends are within `20 u M + 14 η` of points of the exact curve.
Missing for the full claim: that the interval contains the curve up to rounding, which is false
(`C84_cubic_false`). -/
theorem C84_cubic_partial (q : CubicBezier (PointN (Fl F) n)) {M : ℝ}
    (hu : F.u ≤ 1 / 1024) (he : F.eta ≤ 1 / 1024)
    (hs : BoundedBy M q.start) (hc : BoundedBy M q.ctrl1) (hc' : BoundedBy M q.ctrl2)
    (hd : BoundedBy M q.end_) (hmax : 3 * M + 2 ≤ F.max) (hM : 0 ≤ M) :
    ∃ box : Arr (Fl F × Fl F) n, q.boundingBox = some box ∧ ∀ i,
      let curve := fun t : ℝ => (1 - t) ^ 3 * (q.start.coords i).toReal
        + 3 * t * (1 - t) ^ 2 * (q.ctrl1.coords i).toReal
        + 3 * t ^ 2 * (1 - t) * (q.ctrl2.coords i).toReal + t ^ 3 * (q.end_.coords i).toReal
      ((box i).1.IsFinite ∧ (box i).2.IsFinite) ∧
      ((box i).1.toReal ≤ curve 0 ∧ curve 0 ≤ (box i).2.toReal) ∧
      ((box i).1.toReal ≤ curve 1 ∧ curve 1 ≤ (box i).2.toReal) ∧
      (∃ t, (0 ≤ t ∧ t ≤ 1) ∧ |(box i).1.toReal - curve t| ≤ 20 * F.u * M + 14 * F.eta) ∧
      (∃ t, (0 ≤ t ∧ t ≤ 1) ∧ |(box i).2.toReal - curve t| ≤ 20 * F.u * M + 14 * F.eta) := by
  have u0 := F.u_nonneg
  have e0 := F.eta_nonneg
  have uM : 0 ≤ F.u * M := mul_nonneg u0 hM
  have hev : ∀ (r : ℝ) hr, 0 < r → r < 1 → ∀ i, _ := fun r hr h0 h1 i =>
    C67_cubic_casteljau q (t := r) hr h0.le h1.le hu he hs hc hc' hd (by linarith) i
  obtain ⟨box, hbox, hb⟩ := cubic_box q (fun i => (hs i).1) (fun i => (hd i).1)
    (fun r hr h0 h1 i => (hev r hr h0 h1 i).1)
  refine ⟨box, hbox, fun i => ?_⟩
  intro curve
  obtain ⟨roots, hroots, hin, hlo, hhi⟩ := hb i
  have c0 : curve 0 = (q.start.coords i).toReal := by simp only [curve]; ring
  have c1 : curve 1 = (q.end_.coords i).toReal := by simp only [curve]; ring
  have hcand : ∀ x, Candidate (fun t => (q.evalCasteljau t).coords i) roots (q.start.coords i)
      (q.end_.coords i) x → x.IsFinite ∧
        ∃ t, (0 ≤ t ∧ t ≤ 1) ∧ |x.toReal - curve t| ≤ 20 * F.u * M + 14 * F.eta := by
    rintro x (rfl | rfl | ⟨t, _, ⟨r, hr, rfl, h0, h1⟩, rfl⟩)
    · refine ⟨(hs i).1, 0, ⟨le_rfl, zero_le_one⟩, ?_⟩
      rw [c0, sub_self, abs_zero]
      linarith
    · refine ⟨(hd i).1, 1, ⟨zero_le_one, le_rfl⟩, ?_⟩
      rw [c1, sub_self, abs_zero]
      linarith
    · exact ⟨(hev r hr h0 h1 i).1, r, ⟨h0.le, h1.le⟩, (hev r hr h0 h1 i).2⟩
  obtain ⟨flo, tlo⟩ := hcand _ hlo
  obtain ⟨fhi, thi⟩ := hcand _ hhi
  have hin' : ∀ x, Candidate (fun t => (q.evalCasteljau t).coords i) roots (q.start.coords i)
      (q.end_.coords i) x → (box i).1.toReal ≤ x.toReal ∧ x.toReal ≤ (box i).2.toReal := by
    intro x hx
    obtain ⟨h1, h2⟩ := hin x hx
    obtain ⟨a, ha, ea⟩ := isFinite_iff.1 flo
    obtain ⟨b, hb', eb⟩ := isFinite_iff.1 fhi
    obtain ⟨c, hc', ec⟩ := isFinite_iff.1 (hcand x hx).1
    rw [ea, ec, le_fin] at h1
    rw [eb, ec, le_fin] at h2
    rw [ea, eb, ec]
    exact ⟨h1, h2⟩
  refine ⟨⟨flo, fhi⟩, ?_, ?_, tlo, thi⟩
  · rw [c0]; exact hin' _ (Or.inl rfl)
  · rw [c1]; exact hin' _ (Or.inr (Or.inl rfl))

section
variable (cosI acosI : ℝ → ℝ) (powI : ℝ → ℝ → ℝ)

/-- A small dyadic number is a binary64 value. -/
theorem dyadic_ok (m e : ℤ) (hm : |m| ≤ 2 ^ 53) (he : -1074 ≤ e) {x : ℝ} (hx : x = m * 2 ^ e)
    (hb : |x| ≤ 1024) :
    x ∈ (binary64 cosI acosI powI).grid ∧ |x| ≤ (binary64 cosI acosI powI).max := by
  refine ⟨⟨m, e, hm, he, hx⟩, hb.trans (binary64 cosI acosI powI).max_ge⟩

theorem round_eq {F : FloatFormat} {x y : ℝ} (h : x = y) (hy : y ∈ F.grid ∧ |y| ≤ F.max) :
    F.round x = fin y hy := by
  rw [h, F.round_of_mem hy]

/-- In binary64 `36 + 9·2⁻⁵²` rounds to 36. -/
theorem rnd_36 : (binary64 cosI acosI powI).rnd (36 + 9 * 2 ^ (-52 : ℤ)) = 36 := by
  show ieeeRnd 53 (-1074) (36 + 9 * 2 ^ (-52 : ℤ)) = 36
  have hx : |(36 + 9 * 2 ^ (-52 : ℤ) : ℝ)| = 36 + 9 * 2 ^ (-52 : ℤ) := abs_of_pos (by positivity)
  have hl : Int.log 2 |(36 + 9 * 2 ^ (-52 : ℤ) : ℝ)| = 5 := by
    rw [hx]
    apply le_antisymm
    · have : Int.log 2 (36 + 9 * 2 ^ (-52 : ℤ) : ℝ) < 6 := by
        rw [← Int.lt_zpow_iff_log_lt (by norm_num) (by positivity)]
        norm_num
      omega
    · rw [← Int.zpow_le_iff_le_log (by norm_num) (by positivity)]
      norm_num
  have hu : ulpExp 53 (-1074) (36 + 9 * 2 ^ (-52 : ℤ)) = -47 := by
    unfold ulpExp
    rw [hl]
    norm_num
  unfold ieeeRnd
  rw [hu]
  have : roundEven ((36 + 9 * 2 ^ (-52 : ℤ)) / 2 ^ (-47 : ℤ)) = 36 * 2 ^ 47 := by
    refine roundEven_unique (roundEven_spec _) (Or.inl ?_)
    norm_num [abs_lt]
  rw [this]
  norm_num

/-- A cubic in one dimension with control points `0, -1/16, 7/8, 45/16 + 2⁻⁵⁰`: its derivative
is `3·2⁻⁵⁰ t² + 6 t - 3/16`. -/
noncomputable def nearlyQuadratic : CubicBezier (PointN (Fl (binary64 cosI acosI powI)) 1) :=
  ⟨⟨fun _ => fin 0 (FloatFormat.zero_ok _)⟩,
   ⟨fun _ => fin (-1 / 16) (dyadic_ok _ _ _ (-1) (-4) (by norm_num) (by norm_num) (by norm_num)
      (by norm_num [abs_le]))⟩,
   ⟨fun _ => fin (7 / 8) (dyadic_ok _ _ _ 7 (-3) (by norm_num) (by norm_num) (by norm_num)
      (by norm_num [abs_le]))⟩,
   ⟨fun _ => fin (45 / 16 + 2 ^ (-50 : ℤ)) (dyadic_ok _ _ _ (45 * 2 ^ 46 + 1) (-50)
      (by norm_num) (by norm_num) (by norm_num) (by norm_num [abs_le]))⟩⟩

/-- The coefficients the code computes for its derivative are exact. -/
theorem nearlyQuadratic_coeffs (i : Fin 1) :
    (∃ h, (nearlyQuadratic cosI acosI powI).derivative.start.coords i = fin (-3 / 16) h) ∧
    (∃ h, ((nearlyQuadratic cosI acosI powI).derivative.start
      + (nearlyQuadratic cosI acosI powI).derivative.ctrl
        * (lit (-2) : Fl (binary64 cosI acosI powI))
      + (nearlyQuadratic cosI acosI powI).derivative.end_).coords i
      = fin (3 * 2 ^ (-50 : ℤ)) h) ∧
    (∃ h, ((nearlyQuadratic cosI acosI powI).derivative.start
        * (lit (-2) : Fl (binary64 cosI acosI powI))
      + (nearlyQuadratic cosI acosI powI).derivative.ctrl
        * (lit 2 : Fl (binary64 cosI acosI powI))).coords i = fin 6 h) := by
  set F := binary64 cosI acosI powI with hF
  have ok := dyadic_ok cosI acosI powI
  rw [← hF] at ok
  have l2 : (lit 2 : Fl F) = fin 2 (ok 2 0 (by norm_num) (by norm_num) (by norm_num)
      (by norm_num)) := round_eq (by norm_num) _
  have l3 : (lit 3 : Fl F) = fin 3 (ok 3 0 (by norm_num) (by norm_num) (by norm_num)
      (by norm_num)) := round_eq (by norm_num) _
  have lm2 : (lit (-2) : Fl F) = fin (-2) (ok (-2) 0 (by norm_num) (by norm_num) (by norm_num)
      (by norm_num)) := round_eq (by norm_num) _
  have d0 : (nearlyQuadratic cosI acosI powI).derivative.start.coords i
      = fin (-3 / 16) (ok (-3) (-4) (by norm_num) (by norm_num) (by norm_num)
        (by norm_num [abs_le])) := by
    show (fin (-1 / 16) _ - fin 0 _) * (lit 3 : Fl F) = _
    rw [fin_sub, round_eq (y := -1 / 16) (by norm_num) (ok (-1) (-4) (by norm_num) (by norm_num)
      (by norm_num) (by norm_num [abs_le])), l3, fin_mul]
    exact round_eq (by norm_num) _
  have d1 : (nearlyQuadratic cosI acosI powI).derivative.ctrl.coords i
      = fin (45 / 16) (ok 45 (-4) (by norm_num) (by norm_num) (by norm_num)
        (by norm_num [abs_le])) := by
    show (fin (7 / 8) _ - fin (-1 / 16) _) * (lit 3 : Fl F) = _
    rw [fin_sub, round_eq (y := 15 / 16) (by norm_num) (ok 15 (-4) (by norm_num) (by norm_num)
      (by norm_num) (by norm_num [abs_le])), l3, fin_mul]
    exact round_eq (by norm_num) _
  have d2 : (nearlyQuadratic cosI acosI powI).derivative.end_.coords i
      = fin (93 / 16 + 3 * 2 ^ (-50 : ℤ)) (ok (93 * 2 ^ 46 + 3) (-50) (by norm_num) (by norm_num)
        (by norm_num) (by norm_num [abs_le])) := by
    show (fin (45 / 16 + 2 ^ (-50 : ℤ)) _ - fin (7 / 8) _) * (lit 3 : Fl F) = _
    rw [fin_sub, round_eq (y := 31 / 16 + 2 ^ (-50 : ℤ)) (by norm_num) (ok (31 * 2 ^ 46 + 1) (-50)
      (by norm_num) (by norm_num) (by norm_num) (by norm_num [abs_le])), l3, fin_mul]
    exact round_eq (by norm_num) _
  refine ⟨⟨_, d0⟩, ⟨ok 3 (-50) (by norm_num) (by norm_num) (by norm_num)
    (by norm_num [abs_le]), ?_⟩, ⟨ok 6 0 (by norm_num) (by norm_num) (by norm_num)
    (by norm_num), ?_⟩⟩
  · show (nearlyQuadratic cosI acosI powI).derivative.start.coords i
      + (nearlyQuadratic cosI acosI powI).derivative.ctrl.coords i * (lit (-2) : Fl F)
      + (nearlyQuadratic cosI acosI powI).derivative.end_.coords i = _
    rw [d0, d1, d2, lm2, fin_mul, round_eq (y := -90 / 16) (by norm_num) (ok (-90) (-4)
      (by norm_num) (by norm_num) (by norm_num) (by norm_num [abs_le])), fin_add,
      round_eq (y := -93 / 16) (by norm_num) (ok (-93) (-4)
      (by norm_num) (by norm_num) (by norm_num) (by norm_num [abs_le])), fin_add]
    exact round_eq (by norm_num) _
  · show (nearlyQuadratic cosI acosI powI).derivative.start.coords i * (lit (-2) : Fl F)
      + (nearlyQuadratic cosI acosI powI).derivative.ctrl.coords i * (lit 2 : Fl F) = _
    rw [d0, d1, lm2, l2, fin_mul, round_eq (y := 6 / 16) (by norm_num) (ok 6 (-4)
      (by norm_num) (by norm_num) (by norm_num) (by norm_num [abs_le])), fin_mul,
      round_eq (y := 90 / 16) (by norm_num) (ok 90 (-4)
      (by norm_num) (by norm_num) (by norm_num) (by norm_num [abs_le])), fin_add]
    exact round_eq (by norm_num) _

/-- The roots the code computes for these coefficients: a negative one and 0, instead of one near
1/32. -/
theorem lost_root {n : ℕ} (q : QuadraticBezier (PointN (Fl (binary64 cosI acosI powI)) n))
    {h6 ha hc} : ∃ r, r ≤ 0 ∧
    q.realRoots (fin (3 * 2 ^ (-50 : ℤ)) ha) (fin 6 h6) (fin (-3 / 16) hc)
      = some [(binary64 cosI acosI powI).round r, (binary64 cosI acosI powI).round 0] := by
  set F := binary64 cosI acosI powI with hF
  have ok := dyadic_ok cosI acosI powI
  rw [← hF] at ok
  have l2 : (lit 2 : Fl F) = fin 2 (ok 2 0 (by norm_num) (by norm_num) (by norm_num)
      (by norm_num)) := round_eq (by norm_num) _
  have l4 : (lit 4 : Fl F) = fin 4 (ok 4 0 (by norm_num) (by norm_num) (by norm_num)
      (by norm_num)) := round_eq (by norm_num) _
  have h36 : (36 : ℝ) ∈ F.grid ∧ |(36 : ℝ)| ≤ F.max :=
    ok 36 0 (by norm_num) (by norm_num) (by norm_num) (by norm_num)
  have hdelta : (fin 6 h6 : Fl F) * fin 6 h6
      - fin (3 * 2 ^ (-50 : ℤ)) ha * fin (-3 / 16) hc * (lit 4 : Fl F) = fin 36 h36 := by
    rw [l4, fin_mul, round_eq (y := 36) (by norm_num) h36, fin_mul,
      round_eq (y := -9 * 2 ^ (-54 : ℤ)) (by norm_num)
      (ok (-9) (-54) (by norm_num) (by norm_num) (by norm_num) (by norm_num [abs_le])), fin_mul,
      round_eq (y := -9 * 2 ^ (-52 : ℤ)) (by norm_num)
      (ok (-9) (-52) (by norm_num) (by norm_num) (by norm_num) (by norm_num [abs_le])), fin_sub]
    have e36 := rnd_36 cosI acosI powI
    rw [← hF] at e36
    rw [show (36 : ℝ) - -9 * 2 ^ (-52 : ℤ) = 36 + 9 * 2 ^ (-52 : ℤ) by ring,
      F.round_of_rnd_le (by rw [e36]; exact h36.2)]
    exact fin_congr e36
  have hsqrt : Scalar.sqrt (fin 36 h36 : Fl F) = fin 6 h6 := by
    show (open Classical in if (36 : ℝ) < 0 then (nan : Fl F) else F.round (Real.sqrt 36)) = _
    rw [if_neg (by norm_num)]
    refine round_eq ?_ _
    rw [show (36 : ℝ) = 6 ^ 2 by norm_num]
    exact Real.sqrt_sq (by norm_num)
  have n1 : ¬ (Scalar.lt (Scalar.abs (fin (3 * 2 ^ (-50 : ℤ)) ha : Fl F)) Scalar.epsilon
      = true) := by
    rw [epsilon_eq]
    show ¬ (Scalar.lt (fin |3 * 2 ^ (-50 : ℤ)| _ : Fl F) (fin F.epsilon _) = true)
    rw [lt_fin, not_lt, abs_of_pos (by positivity)]
    show (2 : ℝ) ^ (1 - ((53 : ℕ) : ℤ)) ≤ _
    norm_num
  have n2 : Scalar.lt (lit 0 : Fl F) (fin 36 h36) = true := by
    rw [lit_zero]
    exact lt_fin.2 (by norm_num)
  have e1 : -(fin 6 h6 : Fl F) - fin 6 h6 = fin (-12) (ok (-12) 0 (by norm_num) (by norm_num)
      (by norm_num) (by norm_num [abs_le])) := by
    rw [fin_neg, fin_sub]
    exact round_eq (by norm_num) _
  have e2 : -(fin 6 h6 : Fl F) + fin 6 h6 = fin 0 (ok 0 0 (by norm_num) (by norm_num)
      (by norm_num) (by norm_num)) := by
    rw [fin_neg, fin_add]
    exact round_eq (by norm_num) _
  have e3 : (fin (3 * 2 ^ (-50 : ℤ)) ha : Fl F) * (lit 2 : Fl F) = fin (6 * 2 ^ (-50 : ℤ))
      (ok 6 (-50) (by norm_num) (by norm_num) (by norm_num) (by norm_num [abs_le])) := by
    rw [l2, fin_mul]
    exact round_eq (by ring) _
  unfold QuadraticBezier.realRoots
  simp only [hdelta, hsqrt, n1, n2, e1, e2, e3, Bool.false_eq_true, if_false, if_true]
  rw [fin_div (by positivity), fin_div (by positivity), zero_div]
  refine ⟨-12 / (6 * 2 ^ (-50 : ℤ)), ?_, rfl⟩
  norm_num

/-- The box of this curve does not reach below 0. -/
theorem nearlyQuadratic_box :
    let q := nearlyQuadratic cosI acosI powI
    (BoundedBy 3 q.start ∧ BoundedBy 3 q.ctrl1 ∧ BoundedBy 3 q.ctrl2 ∧ BoundedBy 3 q.end_) ∧
    ∃ box, q.boundingBox = some box ∧ 0 ≤ (box 0).1.toReal := by
  intro q
  have hq : q = nearlyQuadratic cosI acosI powI := rfl
  have b0 : BoundedBy 3 q.start := fun i => ⟨trivial, by
    show |(0 : ℝ)| ≤ 3; norm_num⟩
  have b1 : BoundedBy 3 q.ctrl1 := fun i => ⟨trivial, by
    show |(-1 / 16 : ℝ)| ≤ 3; norm_num [abs_le]⟩
  have b2 : BoundedBy 3 q.ctrl2 := fun i => ⟨trivial, by
    show |(7 / 8 : ℝ)| ≤ 3; norm_num [abs_le]⟩
  have b3 : BoundedBy 3 q.end_ := fun i => ⟨trivial, by
    show |(45 / 16 + 2 ^ (-50 : ℤ) : ℝ)| ≤ 3; norm_num [abs_le]⟩
  obtain ⟨box, hbox, hb⟩ := cubic_box q (fun i => (b0 i).1) (fun i => (b3 i).1)
    (fun r hr h0 h1 i => (C67_cubic_casteljau q (t := r) hr h0.le h1.le (by
      show (2 : ℝ) ^ (-(53 : ℕ) : ℤ) ≤ _
      norm_num) (by
      show (2 : ℝ) ^ ((-1074 : ℤ) - 1) ≤ _
      calc (2 : ℝ) ^ ((-1074 : ℤ) - 1) ≤ 2 ^ (-10 : ℤ) :=
            zpow_le_zpow_right₀ (by norm_num) (by norm_num)
        _ ≤ _ := by norm_num) b0 b1 b2 b3 (by
      linarith [(binary64 cosI acosI powI).max_ge]) i).1)
  refine ⟨⟨b0, b1, b2, b3⟩, box, hbox, ?_⟩
  obtain ⟨roots, hroots, -, hlo, -⟩ := hb 0
  obtain ⟨⟨w0, e0⟩, ⟨wa, ea⟩, ⟨wb, eb⟩⟩ := nearlyQuadratic_coeffs cosI acosI powI 0
  obtain ⟨r, hr, hroots'⟩ := lost_root cosI acosI powI q.derivative (h6 := wb) (ha := wa) (hc := w0)
  rw [← e0, ← ea, ← eb, ← hq, hroots, Option.some.injEq] at hroots'
  rcases hlo with h | h | ⟨t, ht, ⟨x, hx, rfl, h0, -⟩, -⟩
  · rw [h]
    show (0 : ℝ) ≤ 0
    exact le_rfl
  · rw [h]
    show (0 : ℝ) ≤ 45 / 16 + 2 ^ (-50 : ℤ)
    positivity
  · exfalso
    have hneg : ∀ y : ℝ, y ≤ 0 → fin x hx ≠ (binary64 cosI acosI powI).round y := by
      intro y hy h
      unfold FloatFormat.round at h
      split_ifs at h
      injection h with h
      have := (binary64 cosI acosI powI).rnd_nonpos hy
      linarith
    rw [hroots'] at ht
    simp only [List.mem_cons, List.not_mem_nil, or_false] at ht
    rcases ht with ht | ht
    · exact hneg r hr ht
    · exact hneg 0 le_rfl ht

/-- **C84** is false of cubic curves: in binary64 there is a curve with coordinates at most 3 in
magnitude whose bounding box misses part of the curve by more than 1/512.  The quadratic formula
loses the root near 1/32 of the derivative to cancellation, because the leading coefficient is
small but not below the machine epsilon. -/
theorem C84_cubic_false : ∃ (q : CubicBezier (PointN (Fl (binary64 cosI acosI powI)) 1))
    (box : Arr (Fl (binary64 cosI acosI powI) × Fl (binary64 cosI acosI powI)) 1) (t : ℝ),
    (BoundedBy 3 q.start ∧ BoundedBy 3 q.ctrl1 ∧ BoundedBy 3 q.ctrl2 ∧ BoundedBy 3 q.end_) ∧
    q.boundingBox = some box ∧ (0 ≤ t ∧ t ≤ 1) ∧
    (1 - t) ^ 3 * (q.start.coords 0).toReal + 3 * t * (1 - t) ^ 2 * (q.ctrl1.coords 0).toReal
      + 3 * t ^ 2 * (1 - t) * (q.ctrl2.coords 0).toReal + t ^ 3 * (q.end_.coords 0).toReal
      < (box 0).1.toReal - 1 / 512 := by
  obtain ⟨hb, box, hbox, hpos⟩ := nearlyQuadratic_box cosI acosI powI
  refine ⟨nearlyQuadratic cosI acosI powI, box, 1 / 32, hb, hbox, by norm_num, ?_⟩
  show (1 - 1 / 32 : ℝ) ^ 3 * 0 + 3 * (1 / 32) * (1 - 1 / 32) ^ 2 * (-1 / 16)
      + 3 * (1 / 32) ^ 2 * (1 - 1 / 32) * (7 / 8) + (1 / 32) ^ 3 * (45 / 16 + 2 ^ (-50 : ℤ)) < _
  have : (1 - 1 / 32 : ℝ) ^ 3 * 0 + 3 * (1 / 32) * (1 - 1 / 32) ^ 2 * (-1 / 16)
      + 3 * (1 / 32) ^ 2 * (1 - 1 / 32) * (7 / 8) + (1 / 32) ^ 3 * (45 / 16 + 2 ^ (-50 : ℤ))
      < -(1 / 400) := by norm_num
  linarith

end

end Stroke
