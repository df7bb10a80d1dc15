import Verif.Props.BSplineMaps
import Verif.Lemmas.Casteljau
import Verif.Lemmas.Ieee

set_option linter.unusedSectionVars false

/-!
# Curves under maps of the control points, in any arithmetic (C96)
-/

namespace Stroke

/-! ### Specification -/

section
variable {S P Q : Type} [Scalar S] [Point S P] [Point S Q]

/-- `f` commutes with the operations of points. -/
structure RespectsPoint (f : P → Q) : Prop extends RespectsOps (S := S) f where
  sub : ∀ p q, f (p - q) = f p - f q

/-- `f` moreover keeps squared lengths and the products of coordinates that the projection onto a
line sums up. -/
structure KeepsMetric (f : P → Q) : Prop extends RespectsPoint (S := S) f where
  squaredLength : ∀ p, Point.squaredLength (f p) = Point.squaredLength p
  dot : ∀ v w, LineSegment.dotLoop (f v) (f w) = LineSegment.dotLoop v w

end

section
variable {P Q : Type} (f : P → Q)

/-- The line segment with every control point moved by `f`; likewise below. -/
def LineSegment.mapPts (l : LineSegment P) : LineSegment Q := ⟨f l.start, f l.end_⟩

def QuadraticBezier.mapPts (q : QuadraticBezier P) : QuadraticBezier Q :=
  ⟨f q.start, f q.ctrl, f q.end_⟩

def CubicBezier.mapPts (c : CubicBezier P) : CubicBezier Q :=
  ⟨f c.start, f c.ctrl1, f c.ctrl2, f c.end_⟩

def Bezier.mapPts {N : ℕ} (b : Bezier P N) : Bezier Q N := ⟨fun i => f (b.control_points i)⟩

def BezierSegment.mapPts : BezierSegment P → BezierSegment Q
  | .linear s => .linear (s.mapPts f)
  | .quadratic s => .quadratic (s.mapPts f)
  | .cubic s => .cubic (s.mapPts f)

end

/-- The point whose coordinate `i` is the coordinate `σ i` of `p`: dropping, repeating and
permuting coordinates. -/
def reindex {S : Type} {n m : ℕ} (σ : Fin m → Fin n) (p : PointN S n) : PointN S m :=
  ⟨fun i => p.coords (σ i)⟩

/-- The point with the sign of the coordinates selected by `σ` flipped. -/
def mirror {S : Type} [Scalar S] {n : ℕ} (σ : Fin n → Bool) (p : PointN S n) : PointN S n :=
  ⟨fun i => if σ i then -p.coords i else p.coords i⟩

/-- Rounding treats both signs alike. -/
def FloatFormat.Symmetric (F : FloatFormat) : Prop := ∀ x, F.rnd (-x) = -F.rnd x

/-! ### Every curve type -/

section
variable {S P Q : Type} [Scalar S] [Point S P] [Point S Q] {f : P → Q}

/-- C96, line segments. -/
theorem C96_line (hf : RespectsPoint (S := S) f) (l : LineSegment P) (t : S) :
    (l.mapPts f).eval t = f (l.eval t)
      ∧ (l.mapPts f).split t = ((l.split t).1.mapPts f, (l.split t).2.mapPts f)
      ∧ (l.mapPts f).derivative = f l.derivative := by
  simp only [LineSegment.mapPts, LineSegment.eval, LineSegment.split, LineSegment.derivative,
    hf.add, hf.mul, hf.sub, and_self]

/-- C96, quadratic curves. -/
theorem C96_quadratic (hf : RespectsPoint (S := S) f) (q : QuadraticBezier P) (t : S) :
    (q.mapPts f).eval t = f (q.eval t)
      ∧ (q.mapPts f).evalCasteljau t = f (q.evalCasteljau t)
      ∧ (q.mapPts f).split t = ((q.split t).1.mapPts f, (q.split t).2.mapPts f)
      ∧ (q.mapPts f).derivative = q.derivative.mapPts f := by
  simp only [QuadraticBezier.mapPts, LineSegment.mapPts, QuadraticBezier.eval,
    QuadraticBezier.evalCasteljau, QuadraticBezier.split, QuadraticBezier.derivative,
    hf.add, hf.mul, hf.sub, and_self]

/-- C96, cubic curves. -/
theorem C96_cubic (hf : RespectsPoint (S := S) f) (c : CubicBezier P) (t : S) :
    (c.mapPts f).eval t = f (c.eval t)
      ∧ (c.mapPts f).evalCasteljau t = f (c.evalCasteljau t)
      ∧ (c.mapPts f).split t = ((c.split t).1.mapPts f, (c.split t).2.mapPts f)
      ∧ (c.mapPts f).derivative = c.derivative.mapPts f := by
  simp only [CubicBezier.mapPts, QuadraticBezier.mapPts, CubicBezier.eval,
    CubicBezier.evalCasteljau, CubicBezier.split, CubicBezier.derivative,
    hf.add, hf.mul, hf.sub, and_self]

/-- C96, segments. -/
theorem C96_segment (hf : RespectsPoint (S := S) f) (s : BezierSegment P) (t : S) :
    (s.mapPts f).eval t = f (s.eval t)
      ∧ (s.mapPts f).split t = ((s.split t).1.mapPts f, (s.split t).2.mapPts f)
      ∧ (s.mapPts f).start = f s.start ∧ (s.mapPts f).end_ = f s.end_
      ∧ (s.mapPts f).baseline = s.baseline.mapPts f := by
  cases s with
  | linear l =>
    have h := C96_line hf l t
    refine ⟨h.1, ?_, rfl, rfl, rfl⟩
    simp only [BezierSegment.mapPts, BezierSegment.split]
    rw [h.2.1]
  | quadratic q =>
    have h := C96_quadratic hf q t
    refine ⟨h.1, ?_, rfl, rfl, rfl⟩
    simp only [BezierSegment.mapPts, BezierSegment.split]
    rw [h.2.2.1]
  | cubic c =>
    have h := C96_cubic hf c t
    refine ⟨h.1, ?_, rfl, rfl, rfl⟩
    simp only [BezierSegment.mapPts, BezierSegment.split]
    rw [h.2.2.1]

theorem cas_map (hf : RespectsPoint (S := S) f) (x : ℕ → P) (t : S) (m : ℕ) :
    ∀ j, cas (fun k => f (x k)) t m j = f (cas x t m j) := by
  induction m with
  | zero => intro j; rfl
  | succ m ih => intro j; simp only [cas, ih, hf.add, hf.mul]

theorem extend_map (hf : RespectsPoint (S := S) f) {N : ℕ} (p : Arr P N) :
    extend (fun i => f (p i)) = fun k => f (extend p k) := by
  funext k
  unfold extend
  split
  · rfl
  · exact hf.default.symm

/-- C96, curves of arbitrary degree: the same result, panics included. -/
theorem C96_bezier (hf : RespectsPoint (S := S) f) {N : ℕ} (b : Bezier P N) (t : S) :
    (b.mapPts f).eval t = (b.eval t).map f
      ∧ (b.mapPts f).split t = (b.split t).map (fun h => (h.1.mapPts f, h.2.mapPts f))
      ∧ Bezier.derivative (b.mapPts f) = (Bezier.derivative b).map (Bezier.mapPts f) := by
  refine ⟨?_, ?_, ?_⟩
  · rcases Nat.eq_zero_or_pos N with h | h
    · subst h; rfl
    · rw [bezier_eval_cas _ h, bezier_eval_cas _ h]
      simp only [Bezier.mapPts, Option.map_some]
      rw [extend_map hf, cas_map hf]
  · rw [bezier_split_cas, bezier_split_cas]
    simp only [Bezier.mapPts, Option.map_some]
    rw [extend_map hf]
    simp only [cas_map hf]
  · match N, b with
    | 0, b =>
      have e : ∀ {R : Type} [Point S R] (b : Bezier R 0),
          ∃ d, Bezier.derivative b = some d := fun b => ⟨_, rfl⟩
      obtain ⟨d, hd⟩ := e b
      obtain ⟨d', hd'⟩ := e (b.mapPts f)
      rw [hd, hd']
      simp only [Option.map_some]
      congr 1
      cases d; cases d'
      simp only [Bezier.mapPts]
      congr 1
      funext i
      exact i.elim0
    | 1, b => rfl
    | N + 2, b =>
      rw [bezier_derivative_eq _ (by omega), bezier_derivative_eq _ (by omega)]
      simp only [Bezier.mapPts, Option.map_some, hf.mul, hf.sub]

/-- C96, B-splines. -/
theorem C96_bspline (hf : RespectsPoint (S := S) f) {K C D : ℕ} (b : BSpline S P K C D) (t : S) :
    BSpline.eval (D := D) ⟨b.knots, b.knot_kind, fun i => f (b.control_points i)⟩ t
        = (b.eval t).mapOk f
      ∧ BSpline.derivative (D := D) ⟨b.knots, b.knot_kind, fun i => f (b.control_points i)⟩
        = b.derivative.map
            fun d => ⟨d.knots, d.knot_kind, fun i => f (d.control_points i)⟩ :=
  ⟨C80_any_arithmetic hf.toRespectsOps b t, C80_derivative hf.toRespectsOps hf.sub b⟩

/-! ### Lengths and distances -/

theorem sampledArclen_map (hf : KeepsMetric (S := S) f) (e : S → Option P) (n : ℕ) :
    sampledArclen (fun t => (e t).map f) n = sampledArclen e n := by
  unfold sampledArclen
  simp only []
  congr 1
  funext i s
  simp only [Option.bind_eq_bind]
  rcases e (Scalar.ofUsize i * lit 1 / Scalar.ofUsize n) with _ | p
  · rfl
  simp only [Option.map_some, Option.bind_some]
  rcases e (Scalar.ofUsize i * lit 1 / Scalar.ofUsize n + lit 1 / Scalar.ofUsize n) with _ | q
  · rfl
  simp only [Option.map_some, Option.bind_some]
  rw [← hf.sub, hf.squaredLength]

theorem searchDistance_map (hf : KeepsMetric (S := S) f) (e : S → Option P) (first p : P) :
    searchDistance (fun t => (e t).map f) (f first) (f p) = searchDistance e first p := by
  have h1 : ∀ s, coarsePass (fun t => (e t).map f) (f p) s = coarsePass e p s := by
    intro s
    unfold coarsePass
    congr 1
    funext i s
    simp only [Option.bind_eq_bind]
    rcases e _ with _ | q
    · rfl
    · simp only [Option.map_some, Option.bind_some]
      rw [← hf.sub, hf.squaredLength]
  have h2 : ∀ s, finePass (fun t => (e t).map f) (f p) s = finePass e p s := by
    intro s
    unfold finePass
    congr 1
    funext i s
    simp only [Option.bind_eq_bind]
    rcases e _ with _ | q
    · rfl
    · simp only [Option.map_some, Option.bind_some]
      rw [← hf.sub, hf.squaredLength]
  unfold searchDistance
  simp only [h1, h2, ← hf.sub, hf.squaredLength]

/-- C96: a map that keeps the metric keeps the reported lengths, bit for bit. -/
theorem C96_arclen (hf : KeepsMetric (S := S) f) (n : ℕ) (q : QuadraticBezier P)
    (c : CubicBezier P) {N : ℕ} (b : Bezier P N) :
    (q.mapPts f).arclen n = q.arclen n ∧ (c.mapPts f).arclen n = c.arclen n
      ∧ (b.mapPts f).arclen n = b.arclen n := by
  refine ⟨?_, ?_, ?_⟩
  · rw [quadratic_arclen_eq, quadratic_arclen_eq, ← sampledArclen_map hf]
    simp only [Option.map_some, (C96_quadratic hf.toRespectsPoint q _).2.1]
  · rw [cubic_arclen_eq, cubic_arclen_eq, ← sampledArclen_map hf]
    simp only [Option.map_some, (C96_cubic hf.toRespectsPoint c _).2.1]
  · rw [bezier_arclen_eq, bezier_arclen_eq, ← sampledArclen_map hf]
    congr 1
    funext t
    exact (C96_bezier hf.toRespectsPoint b t).1

/-- C96: it keeps the reported distances. -/
theorem C96_distance (hf : KeepsMetric (S := S) f) (p : P) (l : LineSegment P)
    (q : QuadraticBezier P) (c : CubicBezier P) {N : ℕ} (b : Bezier P N) :
    (l.mapPts f).distanceToPoint (f p) = l.distanceToPoint p
      ∧ (q.mapPts f).distanceToPoint (f p) = q.distanceToPoint p
      ∧ (c.mapPts f).distanceToPoint (f p) = c.distanceToPoint p
      ∧ (b.mapPts f).distanceToPoint (f p) = b.distanceToPoint p := by
  refine ⟨?_, ?_, ?_, ?_⟩
  · simp only [LineSegment.mapPts, LineSegment.distanceToPoint, ← hf.sub, ← hf.mul, ← hf.add,
      hf.squaredLength, hf.dot]
  · rw [quadratic_distance_eq, quadratic_distance_eq, ← searchDistance_map hf]
    simp only [Option.map_some, (C96_quadratic hf.toRespectsPoint q _).1]
    rfl
  · rw [cubic_distance_eq, cubic_distance_eq, ← searchDistance_map hf]
    simp only [Option.map_some, (C96_cubic hf.toRespectsPoint c _).1]
    rfl
  · rw [bezier_distance_eq, bezier_distance_eq]
    have e : (b.mapPts f).control_points.get? 0 = (b.control_points.get? 0).map f :=
      get?_comp f b.control_points 0
    rw [e]
    cases b.control_points.get? 0 with
    | none => rfl
    | some first =>
      simp only [Option.map_some, Option.bind_some]
      rw [← searchDistance_map hf]
      congr 1
      funext t
      exact (C96_bezier hf.toRespectsPoint b t).1

/-- C96: and the answers of the tests for flatness. -/
theorem C96_flatness (hf : KeepsMetric (S := S) f) (tol : S) (q : QuadraticBezier P)
    (c : CubicBezier P) (s : BezierSegment P) :
    (q.mapPts f).isLinear tol = q.isLinear tol ∧ (q.mapPts f).isAPoint tol = q.isAPoint tol
      ∧ (c.mapPts f).isLinear tol = c.isLinear tol ∧ (c.mapPts f).isAPoint tol = c.isAPoint tol
      ∧ (s.mapPts f).isLinear tol = s.isLinear tol := by
  have hd : ∀ (l : LineSegment P) (p : P),
      (l.mapPts f).distanceToPoint (f p) = l.distanceToPoint p := fun l p =>
    (C96_distance hf p l (⟨p, p, p⟩ : QuadraticBezier P) ⟨p, p, p, p⟩
      (⟨fun _ => p⟩ : Bezier P 1)).1
  have hq : ∀ q : QuadraticBezier P, (q.mapPts f).isLinear tol = q.isLinear tol := by
    intro q
    have e : (q.mapPts f).arePointsColinear tol = q.arePointsColinear tol := by
      unfold QuadraticBezier.arePointsColinear
      simp only []
      rw [← hd q.baseline q.ctrl]; rfl
    unfold QuadraticBezier.isLinear
    rw [e]
    simp only [QuadraticBezier.mapPts, ← hf.sub, hf.squaredLength]
  have hc : ∀ c : CubicBezier P, (c.mapPts f).isLinear tol = c.isLinear tol := by
    intro c
    have e : (c.mapPts f).arePointsColinear tol = c.arePointsColinear tol := by
      unfold CubicBezier.arePointsColinear
      simp only []
      rw [← hd c.baseline c.ctrl1, ← hd c.baseline c.ctrl2]; rfl
    unfold CubicBezier.isLinear
    rw [e]
    simp only [CubicBezier.mapPts, ← hf.sub, hf.squaredLength]
  refine ⟨hq q, ?_, hc c, ?_, ?_⟩
  · simp only [QuadraticBezier.mapPts, QuadraticBezier.isAPoint, ← hf.sub, hf.squaredLength]
  · simp only [CubicBezier.mapPts, CubicBezier.isAPoint, ← hf.sub, hf.squaredLength]
  · cases s with
    | linear l => rfl
    | quadratic q => exact hq q
    | cubic c => exact hc c

end

/-! ### Coordinates are independent of each other -/

section
variable {S : Type} [Scalar S] {n m : ℕ}

/-- C96: dropping, repeating and permuting coordinates commutes with the operations of points. -/
theorem C96_reindex (σ : Fin m → Fin n) :
    RespectsPoint (S := S) (reindex σ : PointN S n → PointN S m) :=
  ⟨⟨rfl, fun _ _ => rfl, fun _ _ => rfl⟩, fun _ _ => rfl⟩

/-- C96: the coordinate `i` of a point of a curve is the point of the one-dimensional curve made
of the coordinates `i` of the control points, in any arithmetic. -/
theorem C96_coordinate (i : Fin n) (q : QuadraticBezier (PointN S n)) (c : CubicBezier (PointN S n))
    (t : S) :
    (q.eval t).coords i = ((q.mapPts (reindex fun _ : Fin 1 => i)).eval t).coords 0
      ∧ (c.eval t).coords i = ((c.mapPts (reindex fun _ : Fin 1 => i)).eval t).coords 0 := by
  rw [(C96_quadratic (C96_reindex fun _ => i) q t).1, (C96_cubic (C96_reindex fun _ => i) c t).1]
  exact ⟨rfl, rfl⟩

/-- C96: changing the other coordinates of the control points does not change the coordinate `i`
of the curve. -/
theorem C96_independent {N : ℕ} (b b' : Bezier (PointN S n) N) (i : Fin n) (t : S)
    (h : ∀ k, (b.control_points k).coords i = (b'.control_points k).coords i) :
    (b.eval t).map (fun p => p.coords i) = (b'.eval t).map (fun p => p.coords i) := by
  have e : b.mapPts (reindex fun _ : Fin 1 => i) = b'.mapPts (reindex fun _ : Fin 1 => i) := by
    unfold Bezier.mapPts reindex
    simp only [h]
  have h1 := (C96_bezier (C96_reindex (S := S) fun _ : Fin 1 => i) b t).1
  have h2 := (C96_bezier (C96_reindex (S := S) fun _ : Fin 1 => i) b' t).1
  rw [e] at h1
  have h3 := congrArg (Option.map fun p : PointN S 1 => p.coords 0) (h1.symm.trans h2)
  rw [Option.map_map, Option.map_map] at h3
  exact h3

end

/-! ### Mirror images in floating point -/

section
variable {F : FloatFormat}

namespace Fl

theorem round_neg (hF : F.Symmetric) (x : ℝ) : F.round (-x) = -F.round x := by
  show F.round (-x) = neg (F.round x)
  unfold FloatFormat.round
  by_cases h : |F.rnd x| ≤ F.max
  · have h' : |F.rnd (-x)| ≤ F.max := by rw [hF, abs_neg]; exact h
    rw [dif_pos h, dif_pos h']
    simp only [neg]
    congr 1
    exact hF x
  · have h' : ¬ |F.rnd (-x)| ≤ F.max := by rw [hF, abs_neg]; exact h
    rw [dif_neg h, dif_neg h']
    have hx : x ≠ 0 := by
      rintro rfl
      apply h
      have e := hF 0
      rw [neg_zero] at e
      have : F.rnd 0 = 0 := by linarith
      rw [this, abs_zero]
      linarith [F.max_ge]
    simp only [neg]
    congr 1
    rcases lt_or_gt_of_ne hx with h0 | h0
    · rw [decide_eq_false (by linarith), decide_eq_true h0]; rfl
    · rw [decide_eq_true (by linarith), decide_eq_false (by linarith)]; rfl

theorem neg_add_neg (hF : F.Symmetric) (x y : Fl F) : -(x + y) = -x + -y := by
  show neg (add x y) = add (neg x) (neg y)
  cases x with
  | nan => rfl
  | inf s => cases y with
    | nan => rfl
    | inf s' => cases s <;> cases s' <;> rfl
    | fin b hb => rfl
  | fin a ha => cases y with
    | nan => rfl
    | inf s' => rfl
    | fin b hb =>
      show -F.round (a + b) = F.round (-a + -b)
      rw [← round_neg hF]
      congr 1
      ring

theorem neg_mul' (hF : F.Symmetric) (x y : Fl F) : -(x * y) = -x * y := by
  show neg (mul x y) = mul (neg x) y
  cases x with
  | nan => rfl
  | inf s => cases y with
    | nan => rfl
    | inf s' => cases s <;> cases s' <;> rfl
    | fin b hb =>
      simp only [neg, mul]
      by_cases h0 : b = 0
      · rw [if_pos h0, if_pos h0]
      · rw [if_neg h0, if_neg h0]
        cases s <;> simp
  | fin a ha => cases y with
    | nan => rfl
    | inf s' =>
      simp only [neg, mul, neg_eq_zero]
      by_cases h0 : a = 0
      · rw [if_pos h0, if_pos h0]
      · rw [if_neg h0, if_neg h0]
        rcases lt_or_gt_of_ne h0 with h | h
        · have e1 : decide (a < 0) = true := decide_eq_true h
          have e2 : decide (-a < 0) = false := decide_eq_false (by linarith)
          cases s' <;> simp only [e1, e2] <;> rfl
        · have e1 : decide (a < 0) = false := decide_eq_false (by linarith)
          have e2 : decide (-a < 0) = true := decide_eq_true (by linarith)
          cases s' <;> simp only [e1, e2] <;> rfl
    | fin b hb =>
      show -F.round (a * b) = F.round (-a * b)
      rw [← round_neg hF]
      congr 1
      ring

theorem mul_comm' (x y : Fl F) : x * y = y * x := by
  show mul x y = mul y x
  cases x <;> cases y <;> simp only [mul]
  · rename_i s s'; cases s <;> cases s' <;> rfl
  · rw [mul_comm]

theorem neg_neg' (x : Fl F) : - -x = x := by
  show neg (neg x) = x
  cases x <;> simp [neg]

theorem neg_mul_neg' (hF : F.Symmetric) (x y : Fl F) : -x * -y = x * y := by
  rw [← neg_mul' hF, mul_comm', ← neg_mul' hF, neg_neg', mul_comm']

theorem neg_lit_zero : (-(lit 0 : Fl F)) = lit 0 := by
  have h0 : (0 : ℝ) ∈ F.grid := by simpa using F.int_mem 0 (by norm_num)
  have e : F.rnd ((0 : ℚ) : ℝ) = 0 := by
    rw [Rat.cast_zero]; exact F.rnd_of_mem 0 h0
  show neg (F.round ((0 : ℚ) : ℝ)) = F.round ((0 : ℚ) : ℝ)
  unfold FloatFormat.round
  have hm : |F.rnd ((0 : ℚ) : ℝ)| ≤ F.max := by rw [e, abs_zero]; linarith [F.max_ge]
  rw [dif_pos hm]
  simp only [neg, e, neg_zero]

end Fl

/-- C96: in a format whose rounding treats both signs alike, flipping the sign of any selection
of coordinates keeps everything: the operations, the squared lengths and the dot products. -/
theorem C96_mirror (hF : F.Symmetric) {n : ℕ} (σ : Fin n → Bool) :
    KeepsMetric (S := Fl F) (mirror σ : PointN (Fl F) n → PointN (Fl F) n) where
  default := by
    show (⟨fun i => if σ i then -(lit 0 : Fl F) else lit 0⟩ : PointN (Fl F) n) = ⟨fun _ => lit 0⟩
    simp only [Fl.neg_lit_zero, ite_self]
  add p q := by
    show (⟨fun i => if σ i then -(p.coords i + q.coords i) else p.coords i + q.coords i⟩ :
      PointN (Fl F) n)
      = ⟨fun i => (if σ i then -p.coords i else p.coords i)
          + (if σ i then -q.coords i else q.coords i)⟩
    congr 1; funext i
    split
    · exact Fl.neg_add_neg hF _ _
    · rfl
  mul p s := by
    show (⟨fun i => if σ i then -(p.coords i * s) else p.coords i * s⟩ : PointN (Fl F) n)
      = ⟨fun i => (if σ i then -p.coords i else p.coords i) * s⟩
    congr 1; funext i
    split
    · exact Fl.neg_mul' hF _ _
    · rfl
  sub p q := by
    show (⟨fun i => if σ i then -(p.coords i + -q.coords i) else p.coords i + -q.coords i⟩ :
      PointN (Fl F) n)
      = ⟨fun i => (if σ i then -p.coords i else p.coords i)
          + -(if σ i then -q.coords i else q.coords i)⟩
    congr 1; funext i
    split
    · exact Fl.neg_add_neg hF _ _
    · rfl
  squaredLength p := by
    show (List.finRange n).foldl (fun s i => s
        + (if σ i then -p.coords i else p.coords i) * (if σ i then -p.coords i else p.coords i))
        (lit 0) = (List.finRange n).foldl (fun s i => s + p.coords i * p.coords i) (lit 0)
    congr 1; funext s i
    split
    · rw [Fl.neg_mul_neg' hF]
    · rfl
  dot v w := by
    unfold LineSegment.dotLoop
    have hl : (Point.iter (mirror σ v)).length = (Point.iter v).length := by
      show (Arr.toList _).length = (Arr.toList _).length
      simp [Arr.toList]
    rw [hl]
    congr 1; funext i s
    have ha : ∀ x : PointN (Fl F) n, Point.axis (mirror σ x) i
        = if h : i < n then some (if σ ⟨i, h⟩ then -x.coords ⟨i, h⟩ else x.coords ⟨i, h⟩)
          else none := by
      intro x
      show PointN.axis _ _ = _
      unfold PointN.axis Arr.get?
      by_cases h : i < n
      · rw [if_pos h.le, dif_pos h, dif_pos h]; rfl
      · rw [dif_neg h, dif_neg h, ite_self]
    have hb : ∀ x : PointN (Fl F) n, Point.axis x i
        = if h : i < n then some (x.coords ⟨i, h⟩) else none := by
      intro x
      show PointN.axis _ _ = _
      unfold PointN.axis Arr.get?
      by_cases h : i < n
      · rw [if_pos h.le, dif_pos h]
      · rw [dif_neg h, ite_self]
    rw [ha, ha, hb, hb]
    by_cases h : i < n
    · simp only [dif_pos h, Option.bind_eq_bind, Option.bind_some]
      split
      · rw [Fl.neg_mul_neg' hF]
      · rfl
    · simp only [dif_neg h]

/-- C96: `f64` and `f32` treat both signs alike. -/
theorem C96_ieee (cosI acosI : ℝ → ℝ) (powI : ℝ → ℝ → ℝ) :
    (binary64 cosI acosI powI).Symmetric ∧ (binary32 cosI acosI powI).Symmetric :=
  ⟨fun x => ieeeRnd_neg x, fun x => ieeeRnd_neg x⟩

/-- C96 for `f64`: the mirror image of a cubic curve has the mirrored points, the same reported
length and the same reported distances; NaN, infinities and rounding included. -/
theorem C96_binary64 (cosI acosI : ℝ → ℝ) (powI : ℝ → ℝ → ℝ) {n : ℕ} (σ : Fin n → Bool)
    (c : CubicBezier (PointN (Fl (binary64 cosI acosI powI)) n))
    (p : PointN (Fl (binary64 cosI acosI powI)) n) (t : Fl (binary64 cosI acosI powI)) (k : ℕ) :
    (c.mapPts (mirror σ)).eval t = mirror σ (c.eval t)
      ∧ (c.mapPts (mirror σ)).arclen k = c.arclen k
      ∧ (c.mapPts (mirror σ)).distanceToPoint (mirror σ p) = c.distanceToPoint p := by
  have hf := C96_mirror (C96_ieee cosI acosI powI).1 σ
  exact ⟨(C96_cubic hf.toRespectsPoint c t).1,
    (C96_arclen hf k (⟨p, p, p⟩ : QuadraticBezier _) c (⟨fun _ => p⟩ : Bezier _ 1)).2.1,
    (C96_distance hf p ⟨p, p⟩ ⟨p, p, p⟩ c (⟨fun _ => p⟩ : Bezier _ 1)).2.2.1⟩

end

/-! ### The hypotheses can be met -/

/-- Swapping the two axes of the plane, in any arithmetic. -/
example {S : Type} [Scalar S] : RespectsPoint (S := S)
    (reindex (fun i : Fin 2 => 1 - i) : PointN S 2 → PointN S 2) := C96_reindex _

/-- The reflection of the plane in the vertical axis, in `f64`. -/
example (cosI acosI : ℝ → ℝ) (powI : ℝ → ℝ → ℝ) :
    KeepsMetric (S := Fl (binary64 cosI acosI powI))
      (mirror (fun i : Fin 2 => i == 0) :
        PointN (Fl (binary64 cosI acosI powI)) 2 → PointN (Fl (binary64 cosI acosI powI)) 2) :=
  C96_mirror (C96_ieee cosI acosI powI).1 _

end Stroke
