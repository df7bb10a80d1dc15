import Verif.Props.FloatHull

/-!
# Floating point: when `bounding_box` panics, and where the box lies (C108, C109)
-/

namespace Stroke

variable {F : FloatFormat} {n : ℕ}

open Fl

/-- A quotient which is a positive number has finite operands. -/
theorem finite_of_div {x y : Fl F} {r : ℝ} {hr : r ∈ F.grid ∧ |r| ≤ F.max} (h0 : 0 < r)
    (h : x / y = fin r hr) : x.IsFinite ∧ y.IsFinite := by
  change Fl.div x y = fin r hr at h
  cases x with
  | nan => simp [Fl.div] at h
  | inf s => cases y <;> simp [Fl.div] at h
  | fin a ha =>
    cases y with
    | nan => simp [Fl.div] at h
    | fin b hb => exact ⟨trivial, trivial⟩
    | inf s =>
      exfalso
      simp only [Fl.div] at h
      rw [F.round_of_mem F.zero_ok, Fl.fin.injEq] at h
      linarith

/-- Accepted as a parameter: strictly between 0 and 1. -/
noncomputable abbrev accepted (t : Fl F) : Bool := Scalar.lt (lit 0) t && Scalar.lt t (lit 1)

theorem accepted_param {t : Fl F} (h : accepted t = true) : UnitParam t := by
  simp only [accepted, Bool.and_eq_true] at h
  exact ⟨Fl.le_of_lt h.1, h.2⟩

theorem finite_of_abs_lt_finite {x : Fl F} {y : Fl F} (h : Scalar.lt (Scalar.abs x) y = true)
    (hy : y.IsFinite) : x.IsFinite := by
  obtain ⟨b, hb, rfl⟩ := isFinite_iff.1 hy
  cases x with
  | nan =>
    change Fl.lt nan _ = true at h
    simp [Fl.lt, val?] at h
  | inf s =>
    change Fl.lt (inf false) _ = true at h
    simp [Fl.lt, val?] at h
  | fin a ha => trivial

theorem epsilon_finite : (Scalar.epsilon : Fl F).IsFinite := by
  rw [epsilon_eq]
  trivial

theorem finite_of_accepted_div {x y : Fl F} (h : accepted (x / y) = true) : y.IsFinite := by
  obtain ⟨r, hr, e, h0, _⟩ := inside_unit h
  exact (finite_of_div h0 e).2

/-- An accepted root of `a t + b`: the coefficient `a` is a number. -/
theorem root_finite {P : Type} [Point (Fl F) P] (l : LineSegment P) {a b : Fl F}
    {r : List (Fl F)} (h : l.root a b = some r) {t : Fl F} (ht : t ∈ r)
    (ha : accepted t = true) : a.IsFinite := by
  unfold LineSegment.root at h
  split_ifs at h
  · simp only [Option.pure_def, Option.some.injEq] at h
    rw [← h] at ht
    simp at ht
  · have e := avPush_eq (by simpa using h)
    rw [e, List.nil_append, List.mem_singleton] at ht
    rw [ht] at ha
    exact finite_of_accepted_div ha

/-- An accepted root of `a t² + b t + c`: the coefficient `a` is a number. -/
theorem realRoots_finite {P : Type} [Point (Fl F) P] (q : QuadraticBezier P) {a b c : Fl F}
    {r : List (Fl F)} (h : q.realRoots a b c = some r) {t : Fl F} (ht : t ∈ r)
    (ha : accepted t = true) : a.IsFinite := by
  unfold QuadraticBezier.realRoots at h
  simp only [avPush] at h
  by_cases c1 : Scalar.lt (Scalar.abs a) Scalar.epsilon = true
  · exact finite_of_abs_lt_finite c1 epsilon_finite
  · have key : ∀ x : Fl F, accepted (x / (a * lit 2)) = true → a.IsFinite := fun x hx =>
      (Reflects.finite.mul _ _ (finite_of_accepted_div hx)).1
    rw [if_neg c1] at h
    by_cases c2 : Scalar.lt (lit 0) (b * b - a * c * lit 4) = true
    · rw [if_pos c2] at h
      simp at h
      rw [← h] at ht
      simp only [List.mem_cons, List.not_mem_nil, or_false] at ht
      rcases ht with rfl | rfl <;> exact key _ ha
    · rw [if_neg c2] at h
      by_cases c3 : Scalar.lt (Scalar.abs (b * b - a * c * lit 4)) Scalar.epsilon = true
      · rw [if_pos c3] at h
        simp at h
        rw [← h] at ht
        simp only [List.mem_cons, List.not_mem_nil, or_false] at ht
        rw [ht] at ha
        exact key _ ha
      · rw [if_neg c3] at h
        simp at h
        rw [h] at ht
        simp at ht

/-- The tail common to both loops, with what is returned. -/
theorem tail_total_mem {cap : ℕ} {l : List (Fl F)} {s e : Fl F} (hl : l.length + 2 ≤ cap)
    (hs : s ≠ nan) (he : e ≠ nan) (hn : ∀ x ∈ l, x ≠ nan) :
    ∃ b, (do
      let l ← avPush cap l s
      let l ← avPush cap l e
      let l ← sortUnwrap l
      let lo ← l.head?
      let hi ← l.getLast?
      pure (lo, hi)) = some b ∧ b.1 ∈ l ++ [s, e] ∧ b.2 ∈ l ++ [s, e] := by
  obtain ⟨b, hb⟩ := tail_total hl hs he hn
  refine ⟨b, hb, ?_⟩
  simp only [Option.bind_eq_bind, Option.bind_eq_some_iff, Option.pure_def,
    Option.some.injEq] at hb
  obtain ⟨l1, h1, l2, h2, l3, h3, lo, h4, hi, h5, rfl⟩ := hb
  rw [avPush_eq h1] at h2
  rw [avPush_eq h2] at h3
  obtain ⟨_, s2, _, _⟩ := sortUnwrap_some h3
  have e1 : l ++ [s] ++ [e] = l ++ [s, e] := by simp
  rw [← e1]
  exact ⟨(s2 _).1 (List.mem_of_mem_head? h4), (s2 _).1 (List.mem_of_mem_getLast? h5)⟩

theorem filter_mapM_mem {p : Fl F → Bool} {g : Fl F → Option (Fl F)} {Q : Fl F → Prop}
    (l : List (Fl F)) (h : ∀ x ∈ l, p x = true → ∃ y, g x = some y ∧ Q y) :
    ∃ m, (l.filter p).mapM g = some m ∧ m.length ≤ l.length ∧ ∀ y ∈ m, Q y := by
  induction l with
  | nil => exact ⟨[], rfl, by simp, by simp⟩
  | cons x l ih =>
    obtain ⟨m, hm, hlen, hn⟩ := ih fun y hy => h y (by simp [hy])
    by_cases hp : p x = true
    · obtain ⟨y, hy, hyn⟩ := h x (by simp) hp
      rw [List.filter_cons_of_pos hp, List.mapM_cons, hy, hm]
      refine ⟨y :: m, rfl, by simp [hlen], ?_⟩
      intro z hz
      rcases List.mem_cons.1 hz with rfl | hz
      · exact hyn
      · exact hn z hz
    · rw [List.filter_cons_of_neg hp]
      exact ⟨m, hm, by simp; omega, hn⟩

/-- One axis of the box of a quadratic curve.  `Q` holds of the end points and of every point
evaluated at an accepted root. -/
theorem quadratic_axis (q : QuadraticBezier (PointN (Fl F) n)) (i : Fin n) {Q : Fl F → Prop}
    (hQ : ∀ x, Q x → x ≠ nan) (hs : Q (q.start.coords i)) (he : Q (q.end_.coords i))
    (ht : ∀ t, accepted t = true →
      ((q.derivative.start * (lit (-1) : Fl F) + q.derivative.end_).coords i).IsFinite →
      Q ((q.evalCasteljau t).coords i)) :
    ∃ b, q.axisBounds q.derivative
      (q.derivative.start * (lit (-1) : Fl F) + q.derivative.end_) q.derivative.start i = some b
      ∧ Q b.1 ∧ Q b.2 := by
  unfold QuadraticBezier.axisBounds
  rw [axis_pointN i.isLt, axis_pointN i.isLt, axis_pointN i.isLt, axis_pointN i.isLt]
  have hroot : ∀ a b : Fl F, ∃ l, q.derivative.root a b = some l ∧ l.length ≤ 1 := by
    intro a b
    unfold LineSegment.root
    split_ifs
    · exact ⟨[], rfl, by simp⟩
    · exact ⟨_, rfl, by simp⟩
  simp only [Option.bind_eq_bind, Option.bind_some]
  obtain ⟨l, hl, hlen⟩ := hroot ((q.derivative.start * (lit (-1) : Fl F)
    + q.derivative.end_).coords ⟨i, i.isLt⟩) (q.derivative.start.coords ⟨i, i.isLt⟩)
  have hfin := fun t ht ha => root_finite q.derivative hl (t := t) ht ha
  rw [hl]
  simp only [Option.bind_some]
  rw [avExtend_le _ _ (by simp; omega)]
  simp only [Option.bind_some, List.nil_append]
  obtain ⟨m, hm, hmlen, hmn⟩ := filter_mapM_mem
    (p := fun root => Scalar.lt (lit 0) root && Scalar.lt root (lit 1))
    (g := fun t => Point.axis (q.evalCasteljau t) i) (Q := Q) l (by
      intro t htl hta
      exact ⟨_, axis_pointN i.isLt, ht t hta (hfin t htl hta)⟩)
  rw [hm]
  simp only [Option.bind_some]
  obtain ⟨b, hb, b1, b2⟩ := tail_total_mem (cap := 3) (l := m) (by omega) (hQ _ hs)
    (hQ _ he) (fun x hx => hQ x (hmn x hx))
  simp only [Option.bind_eq_bind] at hb
  have all : ∀ x ∈ m ++ [q.start.coords i, q.end_.coords i], Q x := by
    intro x hx
    simp only [List.mem_append, List.mem_cons, List.not_mem_nil, or_false] at hx
    rcases hx with hx | rfl | rfl
    exacts [hmn x hx, hs, he]
  exact ⟨b, hb, all _ b1, all _ b2⟩

/-- One axis of the box of a cubic curve. -/
theorem cubic_axis (c : CubicBezier (PointN (Fl F) n)) (i : Fin n) {Q : Fl F → Prop}
    (hQ : ∀ x, Q x → x ≠ nan) (hs : Q (c.start.coords i)) (he : Q (c.end_.coords i))
    (ht : ∀ t, accepted t = true →
      ((c.derivative.start + c.derivative.ctrl * (lit (-2) : Fl F)
        + c.derivative.end_).coords i).IsFinite →
      Q ((c.evalCasteljau t).coords i)) :
    ∃ b, c.axisBounds c.derivative
      (c.derivative.start + c.derivative.ctrl * (lit (-2) : Fl F) + c.derivative.end_)
      (c.derivative.start * (lit (-2) : Fl F) + c.derivative.ctrl * (lit 2 : Fl F))
      c.derivative.start i = some b ∧ Q b.1 ∧ Q b.2 := by
  unfold CubicBezier.axisBounds
  rw [axis_pointN i.isLt, axis_pointN i.isLt, axis_pointN i.isLt, axis_pointN i.isLt,
    axis_pointN i.isLt]
  simp only [Option.bind_eq_bind, Option.bind_some]
  obtain ⟨l, hl, hlen⟩ := realRoots_length c.derivative
    ((c.derivative.start + c.derivative.ctrl * (lit (-2) : Fl F)
      + c.derivative.end_).coords ⟨i, i.isLt⟩)
    ((c.derivative.start * (lit (-2) : Fl F)
      + c.derivative.ctrl * (lit 2 : Fl F)).coords ⟨i, i.isLt⟩)
    (c.derivative.start.coords ⟨i, i.isLt⟩)
  have hfin := fun t ht ha => realRoots_finite c.derivative hl (t := t) ht ha
  rw [hl]
  simp only [Option.bind_some]
  rw [avExtend_le _ _ (by simp; omega)]
  simp only [Option.bind_some, List.nil_append]
  obtain ⟨m, hm, hmlen, hmn⟩ := filter_mapM_mem
    (p := fun root => Scalar.lt (lit 0) root && Scalar.lt root (lit 1))
    (g := fun t => Point.axis (c.evalCasteljau t) i) (Q := Q) l (by
      intro t htl hta
      exact ⟨_, axis_pointN i.isLt, ht t hta (hfin t htl hta)⟩)
  rw [hm]
  simp only [Option.bind_some]
  obtain ⟨b, hb, b1, b2⟩ := tail_total_mem (cap := 4) (l := m) (by omega) (hQ _ hs)
    (hQ _ he) (fun x hx => hQ x (hmn x hx))
  simp only [Option.bind_eq_bind] at hb
  have all : ∀ x ∈ m ++ [c.start.coords i, c.end_.coords i], Q x := by
    intro x hx
    simp only [List.mem_append, List.mem_cons, List.not_mem_nil, or_false] at hx
    rcases hx with hx | rfl | rfl
    exacts [hmn x hx, hs, he]
  exact ⟨b, hb, all _ b1, all _ b2⟩

/-- The whole box of a quadratic curve, from its axes. -/
theorem box_of_axes_quadratic (q : QuadraticBezier (PointN (Fl F) n)) {Q : Fin n → Fl F → Prop}
    (hQ : ∀ i x, Q i x → x ≠ nan) (hs : ∀ i, Q i (q.start.coords i))
    (he : ∀ i, Q i (q.end_.coords i))
    (ht : ∀ i t, accepted t = true →
      ((q.derivative.start * (lit (-1) : Fl F) + q.derivative.end_).coords i).IsFinite →
      Q i ((q.evalCasteljau t).coords i)) :
    ∃ box, q.boundingBox = some box ∧ ∀ i, Q i (box i).1 ∧ Q i (box i).2 := by
  choose v hv hv' using fun i => quadratic_axis q i (hQ i) (hs i) (he i) (ht i)
  refine ⟨v, ?_, hv'⟩
  unfold QuadraticBezier.boundingBox
  simp only []
  rw [show (Point.iter (q.derivative.start * (lit (-1) : Fl F) + q.derivative.end_)).length = n by
    show (PointN.iter _).length = n
    simp [PointN.iter, Arr.toList]]
  refine forRange_fill (n := n) _ _ _ fun i hi b => ?_
  rw [hv ⟨i, hi⟩]
  rfl

/-- The whole box of a cubic curve, from its axes. -/
theorem box_of_axes_cubic (c : CubicBezier (PointN (Fl F) n)) {Q : Fin n → Fl F → Prop}
    (hQ : ∀ i x, Q i x → x ≠ nan) (hs : ∀ i, Q i (c.start.coords i))
    (he : ∀ i, Q i (c.end_.coords i))
    (ht : ∀ i t, accepted t = true →
      ((c.derivative.start + c.derivative.ctrl * (lit (-2) : Fl F)
        + c.derivative.end_).coords i).IsFinite →
      Q i ((c.evalCasteljau t).coords i)) :
    ∃ box, c.boundingBox = some box ∧ ∀ i, Q i (box i).1 ∧ Q i (box i).2 := by
  choose v hv hv' using fun i => cubic_axis c i (hQ i) (hs i) (he i) (ht i)
  refine ⟨v, ?_, hv'⟩
  unfold CubicBezier.boundingBox
  simp only []
  rw [show (Point.iter (c.derivative.start + c.derivative.ctrl * (lit (-2) : Fl F)
      + c.derivative.end_)).length = n by
    show (PointN.iter _).length = n
    simp [PointN.iter, Arr.toList]]
  refine forRange_fill (n := n) _ _ _ fun i hi b => ?_
  rw [hv ⟨i, hi⟩]
  rfl

/-! ### The box of a curve is inside the box of its control points (C108) -/

theorem Between.ne_nan {lo hi : ℝ} {x : Fl F} (h : Between lo hi x) : x ≠ nan :=
  ne_nan_of_finite h.1

/-- **C108** (boxes): `bounding_box` of a quadratic curve returns, and its bounds lie in every box
which contains the control points: there is no rounding error to allow for. -/
theorem C108_quadratic_box (hF : F.ShortSteps) (q : QuadraticBezier (PointN (Fl F) n))
    (lo hi : Fin n → ℝ) (hsize : ∀ i, hi i - lo i ≤ F.max)
    (h : ∀ p ∈ q.controlPoints, InsideBox lo hi p) :
    ∃ box, q.boundingBox = some box ∧
      ∀ i, Between (lo i) (hi i) (box i).1 ∧ Between (lo i) (hi i) (box i).2 := by
  refine box_of_axes_quadratic q (Q := fun i => Between (lo i) (hi i)) (fun i x hx => hx.ne_nan)
    (fun i => h _ (by simp [QuadraticBezier.controlPoints]) i)
    (fun i => h _ (by simp [QuadraticBezier.controlPoints]) i) fun i t hta _ => ?_
  exact (C108_quadratic hF q lo hi hsize h (accepted_param hta)).1 i

/-- **C108** (boxes of cubic curves). -/
theorem C108_cubic_box (hF : F.ShortSteps) (c : CubicBezier (PointN (Fl F) n))
    (lo hi : Fin n → ℝ) (hsize : ∀ i, hi i - lo i ≤ F.max)
    (h : ∀ p ∈ c.controlPoints, InsideBox lo hi p) :
    ∃ box, c.boundingBox = some box ∧
      ∀ i, Between (lo i) (hi i) (box i).1 ∧ Between (lo i) (hi i) (box i).2 := by
  refine box_of_axes_cubic c (Q := fun i => Between (lo i) (hi i)) (fun i x hx => hx.ne_nan)
    (fun i => h _ (by simp [CubicBezier.controlPoints]) i)
    (fun i => h _ (by simp [CubicBezier.controlPoints]) i) fun i t hta _ => ?_
  exact (C108_cubic hF c lo hi hsize h (accepted_param hta)).1 i

/-! ### When `bounding_box` panics (C109) -/

/-- One interpolation step between numbers is never NaN, even if it overflows. -/
theorem lerp_ne_nan {x y t : Fl F} (hx : x.IsFinite) (hy : y.IsFinite)
    (ht : accepted t = true) : x + (y - x) * t ≠ nan := by
  obtain ⟨r, hr, rfl, h0, _⟩ := inside_unit ht
  obtain ⟨a, ha, rfl⟩ := isFinite_iff.1 hx
  obtain ⟨b, hb, rfl⟩ := isFinite_iff.1 hy
  have hround : ∀ z : ℝ, (∃ v hv, F.round z = fin v hv) ∨ ∃ s, F.round z = inf s := by
    intro z
    unfold FloatFormat.round
    split_ifs with h
    · exact Or.inl ⟨_, ⟨F.rnd_mem z, h⟩, rfl⟩
    · exact Or.inr ⟨_, rfl⟩
  have hinf : ∀ s : Bool, (fin a ha + inf s : Fl F) = inf s := fun s => rfl
  rw [fin_sub]
  rcases hround (b - a) with ⟨v, hv, e⟩ | ⟨s, e⟩
  · rw [e, fin_mul]
    rcases hround (v * r) with ⟨w, hw, e⟩ | ⟨s, e⟩
    · rw [e, fin_add]
      rcases hround (a + w) with ⟨z, hz, e⟩ | ⟨s, e⟩ <;> rw [e] <;> simp
    · rw [e, hinf]
      simp
  · rw [e]
    have : (inf s * fin r hr : Fl F) = inf s := by
      show (if r = 0 then nan else inf (s != decide (r < 0))) = _
      rw [if_neg h0.ne', decide_eq_false (not_lt.2 h0.le)]
      simp
    rw [this, hinf]
    simp

/-- Finite operands with a finite difference: the interpolation step is a number between them. -/
theorem lerp_finite (hF : F.ShortSteps) {x y t : Fl F} (hd : (y - x).IsFinite)
    (ht : accepted t = true) :
    (x + (y - x) * t).IsFinite ∧
    Min.min x.toReal y.toReal ≤ (x + (y - x) * t).toReal ∧
    (x + (y - x) * t).toReal ≤ Max.max x.toReal y.toReal := by
  obtain ⟨r, hr, rfl, h0, h1⟩ := inside_unit ht
  obtain ⟨fy, fx⟩ := Reflects.finite.sub _ _ hd
  obtain ⟨a, ha, rfl⟩ := isFinite_iff.1 fx
  obtain ⟨b, hb, rfl⟩ := isFinite_iff.1 fy
  have hd' : |F.rnd (b - a)| ≤ F.max := by
    rw [fin_sub] at hd
    by_contra hc
    unfold FloatFormat.round at hd
    rw [dif_neg hc] at hd
    exact hd
  obtain ⟨v, hv, e, v1, v2⟩ := lerp_between hF (hr := hr) (ha := ha) (hb := hb) h0.le h1 hd'
  rw [e]
  exact ⟨trivial, v1, v2⟩

/-- **C109** (quadratic curves): `bounding_box` panics exactly if a coordinate of the start or end
point is NaN; infinities, NaN in the middle control point and overflow do not make it panic. -/
theorem C109_quadratic (hF : F.ShortSteps) (q : QuadraticBezier (PointN (Fl F) n)) :
    q.boundingBox = none ↔ ∃ i, q.start.coords i = nan ∨ q.end_.coords i = nan := by
  constructor
  · intro h
    by_contra hc
    push Not at hc
    obtain ⟨box, hb, _⟩ := box_of_axes_quadratic q (Q := fun _ x => x ≠ nan) (fun _ _ h => h)
      (fun i => (hc i).1) (fun i => (hc i).2) (by
        intro i t hta hfin
        simp only [QuadraticBezier.derivative, coords_add, coords_mul, coords_sub] at hfin
        obtain ⟨f1, f2⟩ := Reflects.finite.add _ _ hfin
        obtain ⟨f3, _⟩ := Reflects.finite.mul _ _ f1
        obtain ⟨f4, _⟩ := Reflects.finite.mul _ _ f3
        obtain ⟨f5, _⟩ := Reflects.finite.mul _ _ f2
        simp only [QuadraticBezier.evalCasteljau, coords_add, coords_mul, coords_sub]
        exact lerp_ne_nan (lerp_finite hF f4 hta).1 (lerp_finite hF f5 hta).1 hta)
    rw [h] at hb
    cases hb
  · rintro ⟨i, hi⟩
    exact C63_box_quadratic_partial q i hi

/-- If three times a difference does not overflow, the difference is small. -/
theorem diff_small (hu : F.u ≤ 1 / 1024) (he : F.eta ≤ 1 / 1024) {x y : Fl F}
    (h : ((y - x) * (lit 3 : Fl F)).IsFinite) : |y.toReal - x.toReal| ≤ 2 / 5 * F.max := by
  obtain ⟨hd, _⟩ := Reflects.finite.mul _ _ h
  obtain ⟨fy, fx⟩ := Reflects.finite.sub _ _ hd
  obtain ⟨a, ha, rfl⟩ := isFinite_iff.1 fx
  obtain ⟨b, hb, rfl⟩ := isFinite_iff.1 fy
  have fin_of : ∀ z : ℝ, (F.round z).IsFinite → |F.rnd z| ≤ F.max := by
    intro z hz
    by_contra hc
    unfold FloatFormat.round at hz
    rw [dif_neg hc] at hz
    exact hz
  rw [fin_sub] at hd h
  have hd' := fin_of _ hd
  rw [F.round_of_rnd_le hd', show (lit 3 : Fl F) = fin ((3 : ℤ) : ℝ) (F.int_ok 3 (by norm_num))
    from lit_int 3 (by norm_num), fin_mul] at h
  have h' := fin_of _ h
  have e1 := F.rnd_err (b - a)
  have e2 := F.rnd_err (F.rnd (b - a) * ((3 : ℤ) : ℝ))
  rw [toReal_fin, toReal_fin]
  have M := F.max_ge
  set d := F.rnd (b - a) with hdd
  have a1 := abs_sub_abs_le_abs_sub (b - a) d
  rw [abs_sub_comm (b - a) d] at a1
  have a2 := abs_sub_abs_le_abs_sub (d * ((3 : ℤ) : ℝ)) (F.rnd (d * ((3 : ℤ) : ℝ)))
  rw [abs_sub_comm (d * ((3 : ℤ) : ℝ))] at a2
  have a3 : |d * ((3 : ℤ) : ℝ)| = 3 * |d| := by
    rw [abs_mul, mul_comm]
    norm_num
  rw [a3] at a2 e2
  have u1 := mul_le_mul_of_nonneg_right hu (abs_nonneg (b - a))
  have u2 := mul_le_mul_of_nonneg_right hu (show 0 ≤ 3 * |d| by positivity)
  linarith only [a1, a2, e1, e2, u1, u2, he, M, h']

/-- **C109** (cubic curves): `bounding_box` panics exactly if a coordinate of the start or end
point is NaN. -/
theorem C109_cubic (hF : F.ShortSteps) (hu : F.u ≤ 1 / 1024) (he : F.eta ≤ 1 / 1024)
    (c : CubicBezier (PointN (Fl F) n)) :
    c.boundingBox = none ↔ ∃ i, c.start.coords i = nan ∨ c.end_.coords i = nan := by
  constructor
  · intro h
    by_contra hc
    push Not at hc
    obtain ⟨box, hb, _⟩ := box_of_axes_cubic c (Q := fun _ x => x ≠ nan) (fun _ _ h => h)
      (fun i => (hc i).1) (fun i => (hc i).2) (by
        intro i t hta hfin
        simp only [CubicBezier.derivative, coords_add, coords_mul, coords_sub] at hfin
        obtain ⟨f1, f2⟩ := Reflects.finite.add _ _ hfin
        obtain ⟨f3, f4⟩ := Reflects.finite.add _ _ f1
        obtain ⟨f5, _⟩ := Reflects.finite.mul _ _ f4
        have s1 := diff_small hu he f3
        have s2 := diff_small hu he f5
        have s3 := diff_small hu he f2
        obtain ⟨p1, p2, p3⟩ := lerp_finite hF (Reflects.finite.mul _ _ f3).1 hta
        obtain ⟨q1, q2, q3⟩ := lerp_finite hF (Reflects.finite.mul _ _ f5).1 hta
        obtain ⟨r1, r2, r3⟩ := lerp_finite hF (Reflects.finite.mul _ _ f2).1 hta
        simp only [CubicBezier.evalCasteljau, coords_add, coords_mul, coords_sub]
        generalize c.start.coords i + (c.ctrl1.coords i - c.start.coords i) * t = p at p1 p2 p3 ⊢
        generalize c.ctrl1.coords i + (c.ctrl2.coords i - c.ctrl1.coords i) * t = q at q1 q2 q3 ⊢
        generalize c.ctrl2.coords i + (c.end_.coords i - c.ctrl2.coords i) * t = r at r1 r2 r3 ⊢
        have M := F.max_ge
        have diff : ∀ {x y : Fl F}, x.IsFinite → y.IsFinite → |y.toReal - x.toReal| ≤ F.max →
            (y - x).IsFinite := by
          intro x y hx hy hxy
          obtain ⟨a, ha, rfl⟩ := isFinite_iff.1 hx
          obtain ⟨b, hb, rfl⟩ := isFinite_iff.1 hy
          simp only [toReal_fin] at hxy
          rw [fin_sub, F.round_of_le hxy]
          trivial
        rw [abs_le] at s1 s2 s3
        have d1 : (q - p).IsFinite := by
          refine diff p1 q1 (abs_le.2 ⟨?_, ?_⟩)
          · rcases min_choice (c.ctrl1.coords i).toReal (c.ctrl2.coords i).toReal with e1 | e1 <;>
            rcases max_choice (c.start.coords i).toReal (c.ctrl1.coords i).toReal with e2 | e2 <;>
            rw [e1] at q2 <;> rw [e2] at p3 <;> linarith only [q2, p3, s1.1, s1.2, s2.1, s2.2, M]
          · rcases max_choice (c.ctrl1.coords i).toReal (c.ctrl2.coords i).toReal with e1 | e1 <;>
            rcases min_choice (c.start.coords i).toReal (c.ctrl1.coords i).toReal with e2 | e2 <;>
            rw [e1] at q3 <;> rw [e2] at p2 <;> linarith only [q3, p2, s1.1, s1.2, s2.1, s2.2, M]
        have d2 : (r - q).IsFinite := by
          refine diff q1 r1 (abs_le.2 ⟨?_, ?_⟩)
          · rcases min_choice (c.ctrl2.coords i).toReal (c.end_.coords i).toReal with e1 | e1 <;>
            rcases max_choice (c.ctrl1.coords i).toReal (c.ctrl2.coords i).toReal with e2 | e2 <;>
            rw [e1] at r2 <;> rw [e2] at q3 <;> linarith only [r2, q3, s3.1, s3.2, s2.1, s2.2, M]
          · rcases max_choice (c.ctrl2.coords i).toReal (c.end_.coords i).toReal with e1 | e1 <;>
            rcases min_choice (c.ctrl1.coords i).toReal (c.ctrl2.coords i).toReal with e2 | e2 <;>
            rw [e1] at r3 <;> rw [e2] at q2 <;> linarith only [r3, q2, s3.1, s3.2, s2.1, s2.2, M]
        exact lerp_ne_nan (lerp_finite hF d1 hta).1 (lerp_finite hF d2 hta).1 hta)
    rw [h] at hb
    cases hb
  · rintro ⟨i, hi⟩
    exact C63_box_cubic_partial c i hi

/-- **C109**: on an axis where a control coordinate is NaN or infinite, the box of a quadratic
curve is the box of its end points. -/
theorem C109_quadratic_axis (q : QuadraticBezier (PointN (Fl F) n)) {box : Arr (Fl F × Fl F) n}
    (h : q.boundingBox = some box) (i : Fin n)
    (hi : ¬ ((q.start.coords i).IsFinite ∧ (q.ctrl.coords i).IsFinite
      ∧ (q.end_.coords i).IsFinite)) :
    box i = minmax (q.start.coords i) (q.end_.coords i) := by
  obtain ⟨n1, n2⟩ := C64_quadratic h i
  have hs := (ne_nan_of_le n1.1).2
  have he := (ne_nan_of_le n2.1).2
  unfold QuadraticBezier.boundingBox at h
  simp only [] at h
  have hl : (Point.iter (q.derivative.start * (lit (-1) : Fl F) + q.derivative.end_)).length
      = n := by
    show (PointN.iter _).length = n
    simp [PointN.iter, Arr.toList]
  rw [hl] at h
  have hbox := forRange_fill_inv (n := n) _ _ h i
  unfold QuadraticBezier.axisBounds at hbox
  rw [axis_pointN i.isLt, axis_pointN i.isLt, axis_pointN i.isLt, axis_pointN i.isLt] at hbox
  simp only [Option.bind_eq_bind, Option.bind_some, Option.bind_eq_some_iff] at hbox
  obtain ⟨r, hr, l, hl, m, hm, rest⟩ := hbox
  have hfin : ¬ ((q.derivative.start * (lit (-1) : Fl F) + q.derivative.end_).coords i).IsFinite := by
    intro hf
    simp only [QuadraticBezier.derivative, coords_add, coords_mul, coords_sub] at hf
    obtain ⟨f1, f2⟩ := Reflects.finite.add _ _ hf
    obtain ⟨f3, _⟩ := Reflects.finite.mul _ _ f1
    obtain ⟨f4, f5⟩ := Reflects.finite.sub _ _ (Reflects.finite.mul _ _ f3).1
    obtain ⟨f6, _⟩ := Reflects.finite.sub _ _ (Reflects.finite.mul _ _ f2).1
    exact hi ⟨f5, f4, f6⟩
  have hl' : l = r := by
    have : r.length ≤ 1 := by
      unfold LineSegment.root at hr
      simp only [avPush] at hr
      split_ifs at hr
      · simp at hr
        simp [hr]
      · simp at hr
        rw [← hr]
        simp
    rw [avExtend_le _ _ (by simp; omega), Option.some.injEq] at hl
    rw [← hl]
    rfl
  have hfilter : l.filter (fun root => Scalar.lt (lit 0) root && Scalar.lt root (lit 1)) = [] := by
    rw [List.filter_eq_nil_iff, hl']
    intro t ht hta
    exact hfin (root_finite q.derivative hr ht hta)
  rw [hfilter] at hm
  simp only [List.mapM_nil, Option.pure_def, Option.some.injEq] at hm
  subst hm
  obtain ⟨l1, e1, l2, e2, rest⟩ := rest
  rw [avPush_eq e1] at e2
  rw [avPush_eq e2] at rest
  have := sort_two hs he
  simp only [Option.bind_eq_bind] at this
  have e3 : (do
      let l ← sortUnwrap [q.start.coords i, q.end_.coords i]
      let lo ← l.head?
      let hi ← l.getLast?
      pure (lo, hi)) = some (box i) := by
    simp only [Option.bind_eq_bind, Option.bind_eq_some_iff]
    exact rest
  simp only [Option.bind_eq_bind] at e3
  rw [this, Option.some.injEq] at e3
  exact e3.symm

/-- **C109**: on an axis where a control coordinate is NaN or infinite, the box of a cubic curve
is the box of its end points. -/
theorem C109_cubic_axis (c : CubicBezier (PointN (Fl F) n)) {box : Arr (Fl F × Fl F) n}
    (h : c.boundingBox = some box) (i : Fin n)
    (hi : ¬ ((c.start.coords i).IsFinite ∧ (c.ctrl1.coords i).IsFinite
      ∧ (c.ctrl2.coords i).IsFinite ∧ (c.end_.coords i).IsFinite)) :
    box i = minmax (c.start.coords i) (c.end_.coords i) := by
  obtain ⟨n1, n2⟩ := C64_cubic h i
  have hs := (ne_nan_of_le n1.1).2
  have he := (ne_nan_of_le n2.1).2
  unfold CubicBezier.boundingBox at h
  simp only [] at h
  have hl : (Point.iter (c.derivative.start + c.derivative.ctrl * (lit (-2) : Fl F)
      + c.derivative.end_)).length = n := by
    show (PointN.iter _).length = n
    simp [PointN.iter, Arr.toList]
  rw [hl] at h
  have hbox := forRange_fill_inv (n := n) _ _ h i
  unfold CubicBezier.axisBounds at hbox
  rw [axis_pointN i.isLt, axis_pointN i.isLt, axis_pointN i.isLt, axis_pointN i.isLt,
    axis_pointN i.isLt] at hbox
  simp only [Option.bind_eq_bind, Option.bind_some, Option.bind_eq_some_iff] at hbox
  obtain ⟨r, hr, l, hl, m, hm, rest⟩ := hbox
  have hfin : ¬ ((c.derivative.start + c.derivative.ctrl * (lit (-2) : Fl F)
      + c.derivative.end_).coords i).IsFinite := by
    intro hf
    simp only [CubicBezier.derivative, coords_add, coords_mul, coords_sub] at hf
    obtain ⟨f1, f2⟩ := Reflects.finite.add _ _ hf
    obtain ⟨f3, f4⟩ := Reflects.finite.add _ _ f1
    obtain ⟨f5, _⟩ := Reflects.finite.mul _ _ f4
    obtain ⟨g1, g2⟩ := Reflects.finite.sub _ _ (Reflects.finite.mul _ _ f3).1
    obtain ⟨g3, _⟩ := Reflects.finite.sub _ _ (Reflects.finite.mul _ _ f5).1
    obtain ⟨g4, _⟩ := Reflects.finite.sub _ _ (Reflects.finite.mul _ _ f2).1
    exact hi ⟨g2, g1, g3, g4⟩
  have hl' : l = r := by
    obtain ⟨r', hr', hlen⟩ := realRoots_length c.derivative
      ((c.derivative.start + c.derivative.ctrl * (lit (-2) : Fl F)
        + c.derivative.end_).coords ⟨i, i.isLt⟩)
      ((c.derivative.start * (lit (-2) : Fl F)
        + c.derivative.ctrl * (lit 2 : Fl F)).coords ⟨i, i.isLt⟩)
      (c.derivative.start.coords ⟨i, i.isLt⟩)
    rw [hr', Option.some.injEq] at hr
    subst hr
    rw [avExtend_le _ _ (by simp; omega), Option.some.injEq] at hl
    rw [← hl]
    rfl
  have hfilter : l.filter (fun root => Scalar.lt (lit 0) root && Scalar.lt root (lit 1)) = [] := by
    rw [List.filter_eq_nil_iff, hl']
    intro t ht hta
    exact hfin (realRoots_finite c.derivative hr ht hta)
  rw [hfilter] at hm
  simp only [List.mapM_nil, Option.pure_def, Option.some.injEq] at hm
  subst hm
  obtain ⟨l1, e1, l2, e2, rest⟩ := rest
  rw [avPush_eq e1] at e2
  rw [avPush_eq e2] at rest
  have := sort_two hs he
  simp only [Option.bind_eq_bind] at this
  have e3 : (do
      let l ← sortUnwrap [c.start.coords i, c.end_.coords i]
      let lo ← l.head?
      let hi ← l.getLast?
      pure (lo, hi)) = some (box i) := by
    simp only [Option.bind_eq_bind, Option.bind_eq_some_iff]
    exact rest
  simp only [Option.bind_eq_bind] at e3
  rw [this, Option.some.injEq] at e3
  exact e3.symm

/-- **C109** for `f64` and `f32`: without any hypothesis on the curve. -/
theorem C109_ieee (cosI acosI : ℝ → ℝ) (powI : ℝ → ℝ → ℝ) (n : ℕ) :
    (∀ q : QuadraticBezier (PointN (Fl (binary64 cosI acosI powI)) n),
      q.boundingBox = none ↔ ∃ i, q.start.coords i = nan ∨ q.end_.coords i = nan) ∧
    (∀ c : CubicBezier (PointN (Fl (binary64 cosI acosI powI)) n),
      c.boundingBox = none ↔ ∃ i, c.start.coords i = nan ∨ c.end_.coords i = nan) ∧
    (∀ q : QuadraticBezier (PointN (Fl (binary32 cosI acosI powI)) n),
      q.boundingBox = none ↔ ∃ i, q.start.coords i = nan ∨ q.end_.coords i = nan) ∧
    (∀ c : CubicBezier (PointN (Fl (binary32 cosI acosI powI)) n),
      c.boundingBox = none ↔ ∃ i, c.start.coords i = nan ∨ c.end_.coords i = nan) := by
  obtain ⟨h64, h32⟩ := C108_ieee cosI acosI powI
  refine ⟨fun q => C109_quadratic h64 q, fun c => C109_cubic h64 ?_ ?_ c,
    fun q => C109_quadratic h32 q, fun c => C109_cubic h32 ?_ ?_ c⟩
  · show (2 : ℝ) ^ (-((53 : ℕ) : ℤ)) ≤ 1 / 1024
    norm_num
  · show (2 : ℝ) ^ ((-1074 : ℤ) - 1) ≤ 1 / 1024
    calc (2 : ℝ) ^ ((-1074 : ℤ) - 1) ≤ 2 ^ (-10 : ℤ) :=
          zpow_le_zpow_right₀ (by norm_num) (by norm_num)
      _ = 1 / 1024 := by norm_num
  · show (2 : ℝ) ^ (-((24 : ℕ) : ℤ)) ≤ 1 / 1024
    norm_num
  · show (2 : ℝ) ^ ((-149 : ℤ) - 1) ≤ 1 / 1024
    calc (2 : ℝ) ^ ((-149 : ℤ) - 1) ≤ 2 ^ (-10 : ℤ) :=
          zpow_le_zpow_right₀ (by norm_num) (by norm_num)
      _ = 1 / 1024 := by norm_num

/-- Both cases occur: a NaN end point makes `bounding_box` panic, an infinite control point and a
NaN control point do not. -/
example (cosI acosI : ℝ → ℝ) (powI : ℝ → ℝ → ℝ) :
    let F := binary64 cosI acosI powI
    let pt : Fl F → PointN (Fl F) 1 := fun x => ⟨fun _ => x⟩
    (⟨pt (lit 0), pt (lit 1), pt nan⟩ : QuadraticBezier (PointN (Fl F) 1)).boundingBox = none ∧
    (⟨pt (lit 0), pt (inf true), pt nan, pt (inf false)⟩ :
      CubicBezier (PointN (Fl F) 1)).boundingBox ≠ none := by
  intro F pt
  obtain ⟨h1, h2, _, _⟩ := C109_ieee cosI acosI powI 1
  constructor
  · rw [h1]
    exact ⟨0, Or.inr rfl⟩
  · rw [Ne, h2]
    rintro ⟨i, h | h⟩
    · change (lit 0 : Fl F) = nan at h
      rw [lit_zero] at h
      cases h
    · cases h

end Stroke
