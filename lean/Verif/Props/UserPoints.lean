import Verif.Props.AnyMaps
import Verif.Props.BSplineLength
import Verif.Model.Derived

set_option linter.unusedSectionVars false

/-!
# User-defined point types (C106)

The library is generic over the trait `Point`.  A point type of the user whose operations work
coordinate by coordinate behaves exactly like `PointN`, in every arithmetic; the trait's
documentation does not say that its iterator has to yield `DIM` items, but the library relies on
it.
-/

namespace Stroke

/-! ### Specification -/

/-- The point type `P` works coordinate by coordinate: what an implementor of the trait promises.
A coordinate is what the trait's method `axis` returns. -/
structure Componentwise (S P : Type) [Scalar S] [Point S P] : Prop where
  /-- `axis` panics exactly outside of the dimension -/
  axis : ∀ (p : P) (i : ℕ), (Point.axis p i).isSome = true ↔ i < Point.dim P
  add : ∀ (p q : P) (i : ℕ) (a b : S), Point.axis p i = some a → Point.axis q i = some b →
    Point.axis (p + q) i = some (a + b)
  sub : ∀ (p q : P) (i : ℕ) (a b : S), Point.axis p i = some a → Point.axis q i = some b →
    Point.axis (p - q) i = some (a - b)
  mul : ∀ (p : P) (s : S) (i : ℕ) (a : S), Point.axis p i = some a →
    Point.axis (p * s) i = some (a * s)
  default : ∀ i, i < Point.dim P → Point.axis (Point.default : P) i = some (lit 0)
  /-- the iterator yields as many items as there are coordinates -/
  iter : ∀ p : P, (Point.iter p).length = Point.dim P
  /-- the squares of the coordinates are summed up in order -/
  squaredLength : ∀ (p : P) (x : Fin (Point.dim P) → S), (∀ i : Fin _, Point.axis p i = some (x i)) →
    Point.squaredLength p = (List.finRange _).foldl (fun s i => s + x i * x i) (lit 0)
  eq : ∀ (p q : P) (x y : Fin (Point.dim P) → S),
    (∀ i : Fin _, Point.axis p i = some (x i)) → (∀ i : Fin _, Point.axis q i = some (y i)) →
    Point.eq p q = (List.finRange _).all fun i => Scalar.eq (x i) (y i)

/-- The point of the library with the same coordinates. -/
def toPointN {S P : Type} [Scalar S] [Point S P] (p : P) : PointN S (Point.dim P) :=
  ⟨fun i => (Point.axis p i).getD (lit 0)⟩

/-! ### The theorems -/

section
variable {S P : Type} [Scalar S] [Point S P]

namespace Componentwise

theorem axis_fin (h : Componentwise S P) (p : P) (i : Fin (Point.dim P)) :
    Point.axis p i = some ((toPointN p).coords i) := by
  obtain ⟨a, ha⟩ := Option.isSome_iff_exists.1 ((h.axis p i).2 i.2)
  simp only [toPointN, ha, Option.getD_some]

/-- The method `axis` answers the same, panics included. -/
theorem axis_eq (h : Componentwise S P) (p : P) (i : ℕ) :
    Point.axis (toPointN p) i = Point.axis p i := by
  show (if i ≤ Point.dim P then Arr.get? (toPointN p).coords i else none) = _
  by_cases hi : i < Point.dim P
  · rw [if_pos hi.le]
    unfold Arr.get?
    rw [dif_pos hi, ← h.axis_fin p ⟨i, hi⟩]
  · have hn : Point.axis p i = none := by
      rw [← Option.not_isSome_iff_eq_none, h.axis]; exact hi
    rw [hn]
    split
    · unfold Arr.get?; rw [dif_neg hi]
    · rfl

theorem ext_axis {n : ℕ} {p q : PointN S n} (h : ∀ i, p.coords i = q.coords i) : p = q := by
  cases p; cases q
  congr 1
  funext i
  exact h i

theorem metric (h : Componentwise S P) : KeepsMetric (S := S) (toPointN : P → PointN S _) where
  default := by
    apply ext_axis
    intro i
    have := h.axis_fin Point.default i
    rw [h.default i i.2] at this
    exact (Option.some.inj this).symm
  add p q := by
    apply ext_axis
    intro i
    have := h.axis_fin (p + q) i
    rw [h.add p q i _ _ (h.axis_fin p i) (h.axis_fin q i)] at this
    exact (Option.some.inj this).symm
  mul p s := by
    apply ext_axis
    intro i
    have := h.axis_fin (p * s) i
    rw [h.mul p s i _ (h.axis_fin p i)] at this
    exact (Option.some.inj this).symm
  sub p q := by
    apply ext_axis
    intro i
    have := h.axis_fin (p - q) i
    rw [h.sub p q i _ _ (h.axis_fin p i) (h.axis_fin q i)] at this
    exact (Option.some.inj this).symm
  squaredLength p := (h.squaredLength p _ (h.axis_fin p)).symm
  dot v w := by
    unfold LineSegment.dotLoop
    have e : (Point.iter (toPointN v)).length = (Point.iter v).length := by
      rw [h.iter]
      show (Arr.toList _).length = _
      simp [Arr.toList]
    rw [e]
    simp only [h.axis_eq]

theorem iter_length (h : Componentwise S P) (p q : P) :
    (Point.iter (toPointN p)).length = (Point.iter q).length := by
  rw [h.iter]
  show (Arr.toList _).length = _
  simp [Arr.toList]

end Componentwise

/-- **C106**: points.  Two points have the same `PointN` exactly if they have the same coordinates,
and equality, `axis` and `squared_length` answer the same. -/
theorem C106_points (h : Componentwise S P) (p q : P) (i : ℕ) :
    (toPointN p = toPointN q ↔ ∀ k, Point.axis p k = Point.axis q k)
      ∧ Point.eq (toPointN p) (toPointN q) = Point.eq p q
      ∧ Point.axis (toPointN p) i = Point.axis p i
      ∧ Point.squaredLength (toPointN p) = Point.squaredLength p := by
  refine ⟨⟨fun e k => ?_, fun e => ?_⟩, ?_, h.axis_eq p i, h.metric.squaredLength p⟩
  · rw [← h.axis_eq p k, ← h.axis_eq q k, e]
  · unfold toPointN
    simp only [e]
  · exact (h.eq p q _ _ (h.axis_fin p) (h.axis_fin q)).symm

/-- **C106**: points and pieces of curves.  Every method that returns points or curves returns the
ones with the same coordinates that it returns for `PointN`. -/
theorem C106_curves (h : Componentwise S P) (l : LineSegment P) (q : QuadraticBezier P)
    (c : CubicBezier P) (s : BezierSegment P) {N : ℕ} (b : Bezier P N) (t : S) :
    ((l.mapPts toPointN).eval t = toPointN (l.eval t)
      ∧ (l.mapPts toPointN).split t
          = ((l.split t).1.mapPts toPointN, (l.split t).2.mapPts toPointN)
      ∧ (l.mapPts toPointN).derivative = toPointN l.derivative)
    ∧ ((q.mapPts toPointN).eval t = toPointN (q.eval t)
      ∧ (q.mapPts toPointN).evalCasteljau t = toPointN (q.evalCasteljau t)
      ∧ (q.mapPts toPointN).split t
          = ((q.split t).1.mapPts toPointN, (q.split t).2.mapPts toPointN)
      ∧ (q.mapPts toPointN).derivative = q.derivative.mapPts toPointN)
    ∧ ((c.mapPts toPointN).eval t = toPointN (c.eval t)
      ∧ (c.mapPts toPointN).evalCasteljau t = toPointN (c.evalCasteljau t)
      ∧ (c.mapPts toPointN).split t
          = ((c.split t).1.mapPts toPointN, (c.split t).2.mapPts toPointN)
      ∧ (c.mapPts toPointN).derivative = c.derivative.mapPts toPointN)
    ∧ ((s.mapPts toPointN).eval t = toPointN (s.eval t)
      ∧ (s.mapPts toPointN).split t
          = ((s.split t).1.mapPts toPointN, (s.split t).2.mapPts toPointN)
      ∧ (s.mapPts toPointN).start = toPointN s.start ∧ (s.mapPts toPointN).end_ = toPointN s.end_
      ∧ (s.mapPts toPointN).baseline = s.baseline.mapPts toPointN)
    ∧ ((b.mapPts toPointN).eval t = (b.eval t).map toPointN
      ∧ (b.mapPts toPointN).split t
          = (b.split t).map (fun h => (h.1.mapPts toPointN, h.2.mapPts toPointN))
      ∧ Bezier.derivative (b.mapPts toPointN)
          = (Bezier.derivative b).map (Bezier.mapPts toPointN)) :=
  ⟨C96_line h.metric.toRespectsPoint l t, C96_quadratic h.metric.toRespectsPoint q t,
    C96_cubic h.metric.toRespectsPoint c t, C96_segment h.metric.toRespectsPoint s t,
    C96_bezier h.metric.toRespectsPoint b t⟩

/-- **C106**: lengths, distances and tests.  Every method that measures answers the same, panics
included. -/
theorem C106_measures (h : Componentwise S P) (l : LineSegment P) (q : QuadraticBezier P)
    (c : CubicBezier P) (s : BezierSegment P) {N : ℕ} (b : Bezier P N) (n : ℕ) (p : P) (tol : S) :
    ((q.mapPts toPointN).arclen n = q.arclen n ∧ (c.mapPts toPointN).arclen n = c.arclen n
      ∧ (b.mapPts toPointN).arclen n = b.arclen n)
    ∧ ((l.mapPts toPointN).distanceToPoint (toPointN p) = l.distanceToPoint p
      ∧ (q.mapPts toPointN).distanceToPoint (toPointN p) = q.distanceToPoint p
      ∧ (c.mapPts toPointN).distanceToPoint (toPointN p) = c.distanceToPoint p
      ∧ (b.mapPts toPointN).distanceToPoint (toPointN p) = b.distanceToPoint p)
    ∧ ((q.mapPts toPointN).isLinear tol = q.isLinear tol
      ∧ (q.mapPts toPointN).isAPoint tol = q.isAPoint tol
      ∧ (c.mapPts toPointN).isLinear tol = c.isLinear tol
      ∧ (c.mapPts toPointN).isAPoint tol = c.isAPoint tol
      ∧ (s.mapPts toPointN).isLinear tol = s.isLinear tol) :=
  ⟨C96_arclen h.metric n q c b, C96_distance h.metric p l q c b, C96_flatness h.metric tol q c s⟩

/-- **C106**: coordinates of curves: `axis`, `dd` and `solve_t_for_axis` answer the same, panics
included. -/
theorem C106_axes (h : Componentwise S P) (l : LineSegment P) (q : QuadraticBezier P)
    (c : CubicBezier P) (t : S) (i : ℕ) :
    (l.mapPts toPointN).axis t i = l.axis t i
      ∧ (q.mapPts toPointN).axis t i = q.axis t i ∧ (q.mapPts toPointN).dd t i = q.dd t i
      ∧ (q.mapPts toPointN).solveTForAxis t i = q.solveTForAxis t i
      ∧ (c.mapPts toPointN).axis t i = c.axis t i ∧ (c.mapPts toPointN).dd t i = c.dd t i
      ∧ (c.mapPts toPointN).solveTForAxis t i = c.solveTForAxis t i := by
  have hd : ∀ (l : LineSegment P) (p : P),
      (l.mapPts toPointN).distanceToPoint (toPointN p) = l.distanceToPoint p := fun l p =>
    (C96_distance h.metric p l (⟨p, p, p⟩ : QuadraticBezier P) ⟨p, p, p, p⟩
      (⟨fun _ => p⟩ : Bezier P 1)).1
  refine ⟨?_, ?_, ?_, ?_, ?_, ?_, ?_⟩
  · simp only [LineSegment.axis, LineSegment.mapPts, h.axis_eq]
  · simp only [QuadraticBezier.axis, QuadraticBezier.mapPts, h.axis_eq]
  · simp only [QuadraticBezier.dd, QuadraticBezier.mapPts, h.axis_eq]
  · have e1 := (C96_flatness h.metric Scalar.epsilon q c (.quadratic q)).2.1
    have e2 : (q.mapPts toPointN).arePointsColinear (lit 0) = q.arePointsColinear (lit 0) := by
      unfold QuadraticBezier.arePointsColinear
      simp only []
      rw [← hd q.baseline q.ctrl]; rfl
    unfold QuadraticBezier.solveTForAxis
    rw [e1, e2]
    simp only [QuadraticBezier.mapPts, ← h.metric.sub, h.metric.squaredLength, h.axis_eq]
    rfl
  · simp only [CubicBezier.axis, CubicBezier.mapPts, h.axis_eq]
  · simp only [CubicBezier.dd, CubicBezier.mapPts, h.axis_eq]
  · have e1 := (C96_flatness h.metric Scalar.epsilon q c (.cubic c)).2.2.2.1
    have e2 : (c.mapPts toPointN).arePointsColinear Scalar.epsilon
        = c.arePointsColinear Scalar.epsilon := by
      unfold CubicBezier.arePointsColinear
      simp only []
      rw [← hd c.baseline c.ctrl1, ← hd c.baseline c.ctrl2]; rfl
    unfold CubicBezier.solveTForAxis
    rw [e1, e2]
    simp only [CubicBezier.mapPts, ← h.metric.sub, h.metric.squaredLength, h.axis_eq]
    rfl

/-- **C106**: `bounding_box` answers the same, panics included. -/
theorem C106_boxes (h : Componentwise S P) (l : LineSegment P) (q : QuadraticBezier P)
    (c : CubicBezier P) :
    (l.mapPts toPointN).boundingBox = l.boundingBox
      ∧ (q.mapPts toPointN).boundingBox = q.boundingBox
      ∧ (c.mapPts toPointN).boundingBox = c.boundingBox := by
  refine ⟨?_, ?_, ?_⟩
  · unfold LineSegment.boundingBox
    simp only [LineSegment.mapPts, h.axis_eq]
    rw [h.iter_length l.start l.start]
    rfl
  · have e : ∀ (d : LineSegment P) (a b : P) (i : ℕ),
        (q.mapPts toPointN).axisBounds (d.mapPts toPointN) (toPointN a) (toPointN b) i
          = q.axisBounds d a b i := by
      intro d a b i
      unfold QuadraticBezier.axisBounds
      simp only [(C96_quadratic h.metric.toRespectsPoint q _).2.1, h.axis_eq]
      simp only [QuadraticBezier.mapPts, h.axis_eq]
      rfl
    unfold QuadraticBezier.boundingBox
    simp only [(C96_quadratic h.metric.toRespectsPoint q (lit 0)).2.2.2]
    simp only [← e]
    rw [show (q.derivative.mapPts (toPointN : P → PointN S _)).start
          = toPointN q.derivative.start from rfl,
      show (q.derivative.mapPts (toPointN : P → PointN S _)).end_
          = toPointN q.derivative.end_ from rfl,
      ← h.metric.mul, ← h.metric.add, h.iter_length _
        (q.derivative.start * (lit (-1) : S) + q.derivative.end_)]
    rfl
  · have e : ∀ (d : QuadraticBezier P) (a b k : P) (i : ℕ),
        (c.mapPts toPointN).axisBounds (d.mapPts toPointN) (toPointN a) (toPointN b) (toPointN k) i
          = c.axisBounds d a b k i := by
      intro d a b k i
      unfold CubicBezier.axisBounds
      simp only [(C96_cubic h.metric.toRespectsPoint c _).2.1, h.axis_eq]
      simp only [CubicBezier.mapPts, h.axis_eq]
      rfl
    unfold CubicBezier.boundingBox
    simp only [(C96_cubic h.metric.toRespectsPoint c (lit 0)).2.2.2]
    simp only [← e]
    rw [show (c.derivative.mapPts (toPointN : P → PointN S _)).start
          = toPointN c.derivative.start from rfl,
      show (c.derivative.mapPts (toPointN : P → PointN S _)).ctrl
          = toPointN c.derivative.ctrl from rfl,
      show (c.derivative.mapPts (toPointN : P → PointN S _)).end_
          = toPointN c.derivative.end_ from rfl]
    simp only [← h.metric.mul, ← h.metric.add]
    rw [h.iter_length _ (c.derivative.start + c.derivative.ctrl * (lit (-2) : S)
      + c.derivative.end_)]
    rfl

/-- **C106**: the derived comparisons of curves answer the same. -/
theorem C106_equality (h : Componentwise S P) (l l' : LineSegment P) (q q' : QuadraticBezier P)
    (c c' : CubicBezier P) (s s' : BezierSegment P) :
    (l.mapPts toPointN).eq (l'.mapPts toPointN) = l.eq l'
      ∧ (q.mapPts toPointN).eq (q'.mapPts toPointN) = q.eq q'
      ∧ (c.mapPts toPointN).eq (c'.mapPts toPointN) = c.eq c'
      ∧ (s.mapPts toPointN).eq (s'.mapPts toPointN) = s.eq s' := by
  have e : ∀ p q : P, Point.eq (toPointN p) (toPointN q) = Point.eq p q := fun p q =>
    (C106_points h p q 0).2.1
  have el : ∀ l l' : LineSegment P, (l.mapPts toPointN).eq (l'.mapPts toPointN) = l.eq l' :=
    fun l l' => by simp only [LineSegment.eq, LineSegment.mapPts, e]
  have eq : ∀ q q' : QuadraticBezier P, (q.mapPts toPointN).eq (q'.mapPts toPointN) = q.eq q' :=
    fun q q' => by simp only [QuadraticBezier.eq, QuadraticBezier.mapPts, e]
  have ec : ∀ c c' : CubicBezier P, (c.mapPts toPointN).eq (c'.mapPts toPointN) = c.eq c' :=
    fun c c' => by simp only [CubicBezier.eq, CubicBezier.mapPts, e]
  refine ⟨el l l', eq q q', ec c c', ?_⟩
  cases s <;> cases s' <;> first | exact el _ _ | exact eq _ _ | exact ec _ _ | rfl

/-- **C106**: B-splines: the constructor accepts the same input, and `eval`, `derivative` and
`arclen` agree, errors and panics included. -/
theorem C106_bspline (h : Componentwise S P) {K C D : ℕ} (knots : Arr S K) (ps : Arr P C)
    (b : BSpline S P K C D) (t : S) (n : ℕ) :
    BSpline.new (D := D) knots (fun i => toPointN (ps i))
        = (BSpline.new (D := D) knots ps).mapOk (BSpline.mapPts toPointN)
      ∧ (b.mapPts toPointN).eval t = (b.eval t).mapOk toPointN
      ∧ (b.mapPts toPointN).derivative = b.derivative.map (BSpline.mapPts toPointN)
      ∧ (b.mapPts toPointN).arclen n = b.arclen n
      ∧ (b.mapPts toPointN).knotDomain = b.knotDomain := by
  have h1 := C96_bspline h.metric.toRespectsPoint b t
  refine ⟨?_, h1.1, h1.2, arclen_map h.metric b n, rfl⟩
  · unfold BSpline.new
    split_ifs
    · rfl
    · rfl
    · rfl
    · rfl
    · rcases knots.get? 0 with _ | a
      · rfl
      generalize (do knots.get? (← usub K 1)) = z
      rcases z with _ | z
      · rfl
      · rfl

/-! ### A concrete point type -/

/-- A point type as a user would write it: a struct with two fields. -/
structure Vec2 (S : Type) where
  x : S
  y : S

instance {S : Type} [Scalar S] : Point S (Vec2 S) where
  add p q := ⟨p.x + q.x, p.y + q.y⟩
  sub p q := ⟨p.x - q.x, p.y - q.y⟩
  hMul p s := ⟨p.x * s, p.y * s⟩
  eq p q := Scalar.eq p.x q.x && Scalar.eq p.y q.y
  default := ⟨lit 0, lit 0⟩
  iter p := [p.x, p.y]
  dim := 2
  axis p i := match i with
    | 0 => some p.x
    | 1 => some p.y
    | _ => none
  squaredLength p := p.x * p.x + p.y * p.y

/-- It meets the contract in every arithmetic in which adding zero in front changes nothing. -/
theorem vec2_componentwise (h0 : ∀ x : S, (lit 0 : S) + x = x) : Componentwise S (Vec2 S) where
  axis p i := by
    show _ ↔ i < 2
    match i with
    | 0 => exact ⟨fun _ => by omega, fun _ => rfl⟩
    | 1 => exact ⟨fun _ => by omega, fun _ => rfl⟩
    | i + 2 => exact ⟨fun h => (Bool.false_ne_true h).elim, fun h => by omega⟩
  add p q i a b ha hb := by
    match i with
    | 0 => cases ha; cases hb; rfl
    | 1 => cases ha; cases hb; rfl
    | i + 2 => cases ha
  sub p q i a b ha hb := by
    match i with
    | 0 => cases ha; cases hb; rfl
    | 1 => cases ha; cases hb; rfl
    | i + 2 => cases ha
  mul p s i a ha := by
    match i with
    | 0 => cases ha; rfl
    | 1 => cases ha; rfl
    | i + 2 => cases ha
  default i hi := by
    match i, (show i < 2 from hi) with
    | 0, _ => rfl
    | 1, _ => rfl
  iter p := rfl
  squaredLength p x hx := by
    have e0 : x (0 : Fin 2) = p.x := (Option.some.inj (hx (0 : Fin 2))).symm
    have e1 : x (1 : Fin 2) = p.y := (Option.some.inj (hx (1 : Fin 2))).symm
    show p.x * p.x + p.y * p.y
      = (lit 0 + x (0 : Fin 2) * x (0 : Fin 2)) + x (1 : Fin 2) * x (1 : Fin 2)
    rw [h0, e0, e1]
  eq p q x y hx hy := by
    have e0 : x (0 : Fin 2) = p.x := (Option.some.inj (hx (0 : Fin 2))).symm
    have e1 : x (1 : Fin 2) = p.y := (Option.some.inj (hx (1 : Fin 2))).symm
    have f0 : y (0 : Fin 2) = q.x := (Option.some.inj (hy (0 : Fin 2))).symm
    have f1 : y (1 : Fin 2) = q.y := (Option.some.inj (hy (1 : Fin 2))).symm
    show (Scalar.eq p.x q.x && Scalar.eq p.y q.y)
      = (Scalar.eq (x (0 : Fin 2)) (y (0 : Fin 2)) && (Scalar.eq (x (1 : Fin 2)) (y (1 : Fin 2))
        && true))
    rw [e0, e1, f0, f1, Bool.and_true]

end

theorem Fl.zero_add' {F : FloatFormat} (x : Fl F) : (lit 0 : Fl F) + x = x := by
  have hz : (lit 0 : Fl F) = .fin 0 F.zero_ok := Fl.lit_zero
  rw [hz]
  cases x with
  | nan => rfl
  | inf s => rfl
  | fin a ha =>
    show F.round (0 + a) = _
    rw [zero_add]
    exact F.round_of_mem ha

/-- The contract is met by the struct in floating point and in exact arithmetic: the theorems above
apply to it. -/
example (F : FloatFormat) : Componentwise (Fl F) (Vec2 (Fl F)) := vec2_componentwise Fl.zero_add'

example : Componentwise ℝ (Vec2 ℝ) := vec2_componentwise fun x => by
  show ((0 : ℚ) : ℝ) + x = x
  simp

/-- The library's own type meets it, in any arithmetic. -/
theorem pointN_componentwise (S : Type) [Scalar S] (n : ℕ) : Componentwise S (PointN S n) := by
  have hax : ∀ (p : PointN S n) (i : ℕ) (hi : i < n), Point.axis p i = some (p.coords ⟨i, hi⟩) := by
    intro p i hi
    show (if i ≤ n then Arr.get? p.coords i else none) = _
    rw [if_pos hi.le]
    unfold Arr.get?
    rw [dif_pos hi]
  have hlt : ∀ (p : PointN S n) (i : ℕ) (a : S), Point.axis p i = some a → i < n := by
    intro p i a h
    by_contra hi
    have h' : (if i ≤ n then Arr.get? p.coords i else none) = some a := h
    split at h'
    · unfold Arr.get? at h'; rw [dif_neg hi] at h'; cases h'
    · cases h'
  refine ⟨fun p i => ⟨fun h => ?_, fun h => ?_⟩, fun p q i a b ha hb => ?_, fun p q i a b ha hb => ?_,
    fun p s i a ha => ?_, fun i hi => hax _ i hi, fun p => ?_, fun p x hx => ?_,
    fun p q x y hx hy => ?_⟩
  · obtain ⟨a, ha⟩ := Option.isSome_iff_exists.1 h
    exact hlt p i a ha
  · rw [hax p i h]; rfl
  · have hi := hlt p i a ha
    rw [hax p i hi] at ha; rw [hax q i hi] at hb; cases ha; cases hb
    exact hax _ i hi
  · have hi := hlt p i a ha
    rw [hax p i hi] at ha; rw [hax q i hi] at hb; cases ha; cases hb
    exact hax _ i hi
  · have hi := hlt p i a ha
    rw [hax p i hi] at ha; cases ha
    exact hax _ i hi
  · show (Arr.toList _).length = n
    simp [Arr.toList]
  · have e : x = p.coords := by
      funext i
      have := hx i
      rw [hax p i i.2] at this
      exact (Option.some.inj this).symm
    rw [e]; rfl
  · have e : x = p.coords := by
      funext i
      have := hx i
      rw [hax p i i.2] at this
      exact (Option.some.inj this).symm
    have e' : y = q.coords := by
      funext i
      have := hy i
      rw [hax q i i.2] at this
      exact (Option.some.inj this).symm
    rw [e, e']; rfl

/-! ### What the trait does not say -/

/-- A point type that meets the contract except that its iterator yields `k` items: homogeneous
coordinates, say, or a type that skips coordinates. -/
structure Odd (S : Type) (k : ℕ) where
  p : Vec2 S

instance {S : Type} [Scalar S] {k : ℕ} : Point S (Odd S k) where
  add p q := ⟨p.p + q.p⟩
  sub p q := ⟨p.p - q.p⟩
  hMul p s := ⟨p.p * s⟩
  eq p q := Point.eq p.p q.p
  default := ⟨Point.default⟩
  iter _ := List.replicate k (lit 1)
  dim := 2
  axis p i := Point.axis p.p i
  squaredLength p := Point.squaredLength p.p

/-- **C106**: the number of items matters although the trait does not mention it.  With an item too
many the box of every line panics; with an item too few the coordinate it misses is reported as
the interval from 0 to 0, whatever the line is. -/
theorem C106_iterator {S : Type} [Scalar S] (k : ℕ) (a b c d : S) :
    (LineSegment.boundingBox (⟨⟨⟨a, b⟩⟩, ⟨⟨c, d⟩⟩⟩ : LineSegment (Odd S (k + 3))) = none)
      ∧ ∃ box, LineSegment.boundingBox (⟨⟨⟨a, b⟩⟩, ⟨⟨c, d⟩⟩⟩ : LineSegment (Odd S 1)) = some box
        ∧ box (1 : Fin 2) = (lit 0, lit 0) := by
  constructor
  · unfold LineSegment.boundingBox
    refine forRange_none _ 2 (by omega) ?_ (fun s => rfl) _
    show 2 < (List.replicate (k + 3) (lit 1 : S)).length
    rw [List.length_replicate]
    omega
  · have e : LineSegment.boundingBox (⟨⟨⟨a, b⟩⟩, ⟨⟨c, d⟩⟩⟩ : LineSegment (Odd S 1))
        = (if Scalar.lt a c = true
            then Arr.set? (n := 2) (fun _ => (lit 0, lit 0)) 0 (a, c)
            else Arr.set? (n := 2) (fun _ => (lit 0, lit 0)) 0 (c, a)) := by
      unfold LineSegment.boundingBox
      rw [show (Point.iter (⟨⟨a, b⟩⟩ : Odd S 1)).length = 0 + 1 from rfl,
        forRange_succ (le_refl 0), forRange_empty (le_refl 0)]
      rfl
    rw [e]
    split
    · exact ⟨_, rfl, rfl⟩
    · exact ⟨_, rfl, rfl⟩

end Stroke
