import Verif.Props.AnyMaps
import Verif.Props.BSplineLength
import Verif.Model.Derived

set_option linter.unusedSectionVars false

/-!
# Maps between arithmetics

A map `φ` from one arithmetic to another that respects the operations the library performs is
respected by every method.  Division is only required to be respected where the library divides:
by step counts, small constants, and numbers that are not below the machine epsilon.
-/

namespace Stroke

variable {S T : Type} [Scalar S] [Scalar T]

/-- `φ` respects the operations as far as the library uses them. -/
structure ScalarMap (φ : S → T) : Prop where
  add : ∀ x y, φ (x + y) = φ x + φ y
  sub : ∀ x y, φ (x - y) = φ x - φ y
  mul : ∀ x y, φ (x * y) = φ x * φ y
  neg : ∀ x, φ (-x) = -φ x
  lit : ∀ q, φ (lit q) = lit q
  ofUsize : ∀ n, φ (Scalar.ofUsize n) = Scalar.ofUsize n
  epsilon : φ Scalar.epsilon = Scalar.epsilon
  lt : ∀ x y, Scalar.lt (φ x) (φ y) = Scalar.lt x y
  le : ∀ x y, Scalar.le (φ x) (φ y) = Scalar.le x y
  eq : ∀ x y, Scalar.eq (φ x) (φ y) = Scalar.eq x y
  isNaN : ∀ x, Scalar.isNaN (φ x) = Scalar.isNaN x
  abs : ∀ x, φ (Scalar.abs x) = Scalar.abs (φ x)
  sqrt : ∀ x, φ (Scalar.sqrt x) = Scalar.sqrt (φ x)
  cos : ∀ x, φ (Scalar.cos x) = Scalar.cos (φ x)
  div_usize : ∀ x n, φ (x / Scalar.ofUsize n) = φ x / Scalar.ofUsize n
  div_lit : ∀ x (n : ℕ), 0 < n → n ≤ 1024 → φ (x / Stroke.lit (n : ℚ)) = φ x / Stroke.lit (n : ℚ)
  div_guard : ∀ x y, Scalar.lt y Scalar.epsilon = false
    ∨ Scalar.lt (Scalar.abs y) Scalar.epsilon = false → φ (x / y) = φ x / φ y
  div_double : ∀ x y, Scalar.lt (Scalar.abs y) Scalar.epsilon = false →
    φ (x / (y * Stroke.lit 2)) = φ x / (φ y * Stroke.lit 2)
  acos_div : ∀ x y, φ (Scalar.acos (x / y)) = Scalar.acos (φ x / φ y)
  cbrt : ∀ x, φ (Scalar.signum x * Scalar.powf (Scalar.abs x) (Stroke.lit 1 / Stroke.lit 3))
    = Scalar.signum (φ x) * Scalar.powf (Scalar.abs (φ x)) (Stroke.lit 1 / Stroke.lit 3)

/-- The point with every coordinate mapped. -/
def PointN.mapC {n : ℕ} (φ : S → T) (p : PointN S n) : PointN T n := ⟨fun i => φ (p.coords i)⟩

/-- The B-spline with every knot and every coordinate mapped. -/
def BSpline.mapC {n K C D : ℕ} (φ : S → T) (b : BSpline S (PointN S n) K C D) :
    BSpline T (PointN T n) K C D :=
  ⟨fun i => φ (b.knots i), b.knot_kind, fun i => (b.control_points i).mapC φ⟩

namespace ScalarMap

variable {φ : S → T} (h : ScalarMap φ) {n : ℕ}
include h

/-! ### Points -/

theorem pAdd (p q : PointN S n) : (p + q).mapC φ = p.mapC φ + q.mapC φ := by
  show (⟨fun i => φ (p.coords i + q.coords i)⟩ : PointN T n) = ⟨fun i => φ _ + φ _⟩
  simp only [h.add]

theorem pSub (p q : PointN S n) : (p - q).mapC φ = p.mapC φ - q.mapC φ := by
  show (⟨fun i => φ (p.coords i - q.coords i)⟩ : PointN T n) = ⟨fun i => φ _ - φ _⟩
  simp only [h.sub]

theorem pMul (p : PointN S n) (s : S) : (p * s).mapC φ = p.mapC φ * φ s := by
  show (⟨fun i => φ (p.coords i * s)⟩ : PointN T n) = ⟨fun i => φ _ * φ _⟩
  simp only [h.mul]

theorem pDefault : (Point.default : PointN S n).mapC φ = Point.default := by
  show (⟨fun i => φ (Stroke.lit 0)⟩ : PointN T n) = ⟨fun i => Stroke.lit 0⟩
  simp only [h.lit]

theorem pAxis (p : PointN S n) (i : ℕ) : Point.axis (p.mapC φ) i = (Point.axis p i).map φ := by
  show (if i ≤ n then Arr.get? (p.mapC φ).coords i else none)
    = (if i ≤ n then Arr.get? p.coords i else none).map φ
  split
  · unfold Arr.get?
    split <;> rfl
  · rfl

theorem pIter (p q : PointN S n) : (Point.iter (p.mapC φ)).length = (Point.iter q).length := by
  show (Arr.toList _).length = (Arr.toList _).length
  simp [Arr.toList]

theorem pEq (p q : PointN S n) : Point.eq (p.mapC φ) (q.mapC φ) = Point.eq p q := by
  show (List.finRange n).all _ = (List.finRange n).all _
  congr 1
  funext i
  exact h.eq _ _

theorem pSquaredLength (p : PointN S n) :
    Point.squaredLength (p.mapC φ) = φ (Point.squaredLength p) := by
  show (List.finRange n).foldl (fun s i => s + φ (p.coords i) * φ (p.coords i)) (Stroke.lit 0)
    = φ ((List.finRange n).foldl (fun s i => s + p.coords i * p.coords i) (Stroke.lit 0))
  rw [← h.lit]
  generalize (Stroke.lit 0 : S) = z
  induction List.finRange n generalizing z with
  | nil => rfl
  | cons i l ih =>
    simp only [List.foldl_cons]
    rw [← h.mul, ← h.add, ih]

/-! ### Points and pieces of curves -/

theorem line (l : LineSegment (PointN S n)) (t : S) :
    (l.mapPts (PointN.mapC φ)).eval (φ t) = (l.eval t).mapC φ
      ∧ (l.mapPts (PointN.mapC φ)).split (φ t)
        = ((l.split t).1.mapPts (PointN.mapC φ), (l.split t).2.mapPts (PointN.mapC φ))
      ∧ (l.mapPts (PointN.mapC φ)).derivative = l.derivative.mapC φ := by
  simp only [LineSegment.mapPts, LineSegment.eval, LineSegment.split, LineSegment.derivative,
    h.pAdd, h.pMul, h.pSub, and_self]

theorem quadratic (q : QuadraticBezier (PointN S n)) (t : S) :
    (q.mapPts (PointN.mapC φ)).eval (φ t) = (q.eval t).mapC φ
      ∧ (q.mapPts (PointN.mapC φ)).evalCasteljau (φ t) = (q.evalCasteljau t).mapC φ
      ∧ (q.mapPts (PointN.mapC φ)).split (φ t)
        = ((q.split t).1.mapPts (PointN.mapC φ), (q.split t).2.mapPts (PointN.mapC φ))
      ∧ (q.mapPts (PointN.mapC φ)).derivative = q.derivative.mapPts (PointN.mapC φ) := by
  simp only [QuadraticBezier.mapPts, LineSegment.mapPts, QuadraticBezier.eval,
    QuadraticBezier.evalCasteljau, QuadraticBezier.split, QuadraticBezier.derivative,
    h.pAdd, h.pMul, h.pSub, h.add, h.mul, h.neg, h.lit, and_self]

theorem cubic (c : CubicBezier (PointN S n)) (t : S) :
    (c.mapPts (PointN.mapC φ)).eval (φ t) = (c.eval t).mapC φ
      ∧ (c.mapPts (PointN.mapC φ)).evalCasteljau (φ t) = (c.evalCasteljau t).mapC φ
      ∧ (c.mapPts (PointN.mapC φ)).split (φ t)
        = ((c.split t).1.mapPts (PointN.mapC φ), (c.split t).2.mapPts (PointN.mapC φ))
      ∧ (c.mapPts (PointN.mapC φ)).derivative = c.derivative.mapPts (PointN.mapC φ) := by
  simp only [CubicBezier.mapPts, QuadraticBezier.mapPts, CubicBezier.eval,
    CubicBezier.evalCasteljau, CubicBezier.split, CubicBezier.derivative,
    h.pAdd, h.pMul, h.pSub, h.add, h.mul, h.neg, h.lit, and_self]

theorem segment (s : BezierSegment (PointN S n)) (t : S) :
    (s.mapPts (PointN.mapC φ)).eval (φ t) = (s.eval t).mapC φ
      ∧ (s.mapPts (PointN.mapC φ)).split (φ t)
        = ((s.split t).1.mapPts (PointN.mapC φ), (s.split t).2.mapPts (PointN.mapC φ)) := by
  cases s with
  | linear l =>
    have e := h.line l t
    refine ⟨e.1, ?_⟩
    simp only [BezierSegment.mapPts, BezierSegment.split]
    rw [e.2.1]
  | quadratic q =>
    have e := h.quadratic q t
    refine ⟨e.1, ?_⟩
    simp only [BezierSegment.mapPts, BezierSegment.split]
    rw [e.2.2.1]
  | cubic c =>
    have e := h.cubic c t
    refine ⟨e.1, ?_⟩
    simp only [BezierSegment.mapPts, BezierSegment.split]
    rw [e.2.2.1]

theorem cas (x : ℕ → PointN S n) (t : S) (m : ℕ) :
    ∀ j, Stroke.cas (fun k => (x k).mapC φ) (φ t) m j = (Stroke.cas x t m j).mapC φ := by
  induction m with
  | zero => intro j; rfl
  | succ m ih => intro j; simp only [Stroke.cas, ih, h.pAdd, h.pMul, h.add, h.neg, h.lit]

theorem extend {N : ℕ} (p : Arr (PointN S n) N) :
    Stroke.extend (fun i => (p i).mapC φ) = fun k => (Stroke.extend p k).mapC φ := by
  funext k
  unfold Stroke.extend
  split
  · rfl
  · exact h.pDefault.symm

theorem bezier {N : ℕ} (b : Bezier (PointN S n) N) (t : S) :
    (b.mapPts (PointN.mapC φ)).eval (φ t) = (b.eval t).map (PointN.mapC φ)
      ∧ (b.mapPts (PointN.mapC φ)).split (φ t)
        = (b.split t).map (fun h => (h.1.mapPts (PointN.mapC φ), h.2.mapPts (PointN.mapC φ)))
      ∧ Bezier.derivative (b.mapPts (PointN.mapC φ))
        = (Bezier.derivative b).map (Bezier.mapPts (PointN.mapC φ)) := by
  refine ⟨?_, ?_, ?_⟩
  · rcases Nat.eq_zero_or_pos N with hN | hN
    · subst hN; rfl
    · rw [bezier_eval_cas _ hN, bezier_eval_cas _ hN]
      simp only [Bezier.mapPts, Option.map_some]
      rw [h.extend, h.cas]
  · rw [bezier_split_cas, bezier_split_cas]
    simp only [Bezier.mapPts, Option.map_some]
    rw [h.extend]
    simp only [h.cas]
  · match N, b with
    | 0, b =>
      have e : ∀ {S R : Type} [Scalar S] [Point S R] (b : Bezier R 0),
          ∃ d, Bezier.derivative b = some d := fun b => ⟨_, rfl⟩
      obtain ⟨d, hd⟩ := e b
      obtain ⟨d', hd'⟩ := e (b.mapPts (PointN.mapC φ))
      rw [hd, hd']
      simp only [Option.map_some]
      congr 1
      cases d; cases d'
      simp only [Bezier.mapPts]
      congr 1
      funext i
      exact i.elim0
    | 1, b => rfl
    | N + 2, b =>
      rw [bezier_derivative_eq _ (by omega), bezier_derivative_eq _ (by omega)]
      simp only [Bezier.mapPts, Option.map_some, h.pMul, h.pSub, h.ofUsize]

/-! ### Lengths and distances -/

theorem half : φ (Stroke.lit (1 / 2)) = Stroke.lit (1 / 2) := h.lit _

theorem div_two (x : S) : φ (x / Stroke.lit 2) = φ x / Stroke.lit 2 := by
  have := h.div_lit x 2 (by omega) (by omega)
  simpa using this

theorem div_three (x : S) : φ (x / Stroke.lit 3) = φ x / Stroke.lit 3 := by
  have := h.div_lit x 3 (by omega) (by omega)
  simpa using this

theorem div_nine (x : S) : φ (x / Stroke.lit 9) = φ x / Stroke.lit 9 := by
  have := h.div_lit x 9 (by omega) (by omega)
  simpa using this

theorem div_54 (x : S) : φ (x / Stroke.lit 54) = φ x / Stroke.lit 54 := by
  have := h.div_lit x 54 (by omega) (by omega)
  simpa using this

omit h in
theorem _root_.Stroke.forRange_hom {σ τ : Type} (g : σ → τ) {lo hi : ℕ} (f : ℕ → σ → Option σ)
    (f' : ℕ → τ → Option τ) (hf : ∀ i s, f' i (g s) = (f i s).map g) (s : σ) :
    forRange lo hi (g s) f' = (forRange lo hi s f).map g :=
  foldlM_map (m := Option) g _ _ (fun s i => hf i s) _ s

theorem sampledArclen (e : S → Option (PointN S n)) (e' : T → Option (PointN T n))
    (he : ∀ t, e' (φ t) = (e t).map (PointN.mapC φ)) (k : ℕ) :
    Stroke.sampledArclen e' k = (Stroke.sampledArclen e k).map φ := by
  unfold Stroke.sampledArclen
  simp only []
  rw [← h.lit 0]
  refine forRange_hom φ _ _ (fun i s => ?_) _
  have e1 : (Scalar.ofUsize i * Stroke.lit 1 / Scalar.ofUsize k : T)
      = φ (Scalar.ofUsize i * Stroke.lit 1 / Scalar.ofUsize k) := by
    rw [h.div_usize, h.mul, h.ofUsize, h.lit]
  have e2 : (Stroke.lit 1 / Scalar.ofUsize k : T) = φ (Stroke.lit 1 / Scalar.ofUsize k) := by
    rw [h.div_usize, h.lit]
  rw [e1, e2, ← h.add, he, he]
  rcases e (Scalar.ofUsize i * Stroke.lit 1 / Scalar.ofUsize k) with _ | p
  · rfl
  rcases e (Scalar.ofUsize i * Stroke.lit 1 / Scalar.ofUsize k
    + Stroke.lit 1 / Scalar.ofUsize k) with _ | q
  · rfl
  show some _ = some _
  rw [← h.pSub, h.pSquaredLength, ← h.sqrt, ← h.add]

theorem coarsePass (e : S → Option (PointN S n)) (e' : T → Option (PointN T n))
    (he : ∀ t, e' (φ t) = (e t).map (PointN.mapC φ)) (p : PointN S n) (s : S × S) :
    Stroke.coarsePass e' (p.mapC φ) (φ s.1, φ s.2)
      = (Stroke.coarsePass e p s).map fun s => (φ s.1, φ s.2) := by
  unfold Stroke.coarsePass
  refine forRange_hom (fun s : S × S => (φ s.1, φ s.2)) _ _ (fun i s => ?_) s
  have e1 : (Scalar.ofUsize i * Stroke.lit 1 / Scalar.ofUsize nstepsDistance : T)
      = φ (Scalar.ofUsize i * Stroke.lit 1 / Scalar.ofUsize nstepsDistance) := by
    rw [h.div_usize, h.mul, h.ofUsize, h.lit]
  simp only []
  rw [e1, he]
  rcases e (Scalar.ofUsize i * Stroke.lit 1 / Scalar.ofUsize nstepsDistance) with _ | q
  · rfl
  simp only [Option.map_some, Option.bind_eq_bind, Option.bind_some]
  rw [← h.pSub, h.pSquaredLength, h.lt]
  split <;> rfl

theorem finePass (e : S → Option (PointN S n)) (e' : T → Option (PointN T n))
    (he : ∀ t, e' (φ t) = (e t).map (PointN.mapC φ)) (p : PointN S n) (s : S × S) :
    Stroke.finePass e' (p.mapC φ) (φ s.1, φ s.2)
      = (Stroke.finePass e p s).map fun s => (φ s.1, φ s.2) := by
  unfold Stroke.finePass
  refine forRange_hom (fun s : S × S => (φ s.1, φ s.2)) _ _ (fun i s => ?_) s
  have e1 : (Scalar.ofUsize i * Stroke.lit 1
        / Scalar.ofUsize (nstepsDistance * nstepsDistance) : T)
      = φ (Scalar.ofUsize i * Stroke.lit 1
        / Scalar.ofUsize (nstepsDistance * nstepsDistance)) := by
    rw [h.div_usize, h.mul, h.ofUsize, h.lit]
  have e2 : (Scalar.ofUsize nstepsDistance / Stroke.lit 2 : T)
      = φ (Scalar.ofUsize nstepsDistance / Stroke.lit 2) := by
    rw [h.div_two, h.ofUsize]
  simp only []
  rw [e1, e2, ← h.add, ← h.mul, ← h.sub, he]
  rcases e (s.1 + Scalar.ofUsize i * Stroke.lit 1
        / Scalar.ofUsize (nstepsDistance * nstepsDistance) - Scalar.ofUsize i * Stroke.lit 1
        / Scalar.ofUsize (nstepsDistance * nstepsDistance)
          * (Scalar.ofUsize nstepsDistance / Stroke.lit 2)) with _ | q
  · rfl
  simp only [Option.map_some, Option.bind_eq_bind, Option.bind_some]
  rw [← h.pSub, h.pSquaredLength, h.lt]
  split <;> rfl

theorem searchDistance (e : S → Option (PointN S n)) (e' : T → Option (PointN T n))
    (he : ∀ t, e' (φ t) = (e t).map (PointN.mapC φ)) (first p : PointN S n) :
    Stroke.searchDistance e' (first.mapC φ) (p.mapC φ)
      = (Stroke.searchDistance e first p).map φ := by
  unfold Stroke.searchDistance
  simp only []
  rw [← h.pSub, h.pSquaredLength, ← h.half]
  have e1 := h.coarsePass e e' he p (Stroke.lit (1 / 2), Point.squaredLength (p - first))
  simp only [] at e1
  rw [e1]
  rcases Stroke.coarsePass e p (Stroke.lit (1 / 2), Point.squaredLength (p - first)) with _ | s
  · rfl
  simp only [Option.map_some, Option.bind_eq_bind, Option.bind_some]
  rw [h.finePass e e' he p s]
  rcases Stroke.finePass e p s with _ | s
  · rfl
  show some _ = some _
  rw [← h.sqrt]

theorem dotLoop (v w : PointN S n) :
    LineSegment.dotLoop (v.mapC φ) (w.mapC φ) = (LineSegment.dotLoop v w).map φ := by
  unfold LineSegment.dotLoop
  rw [h.pIter v v, ← h.lit 0]
  refine forRange_hom φ _ _ (fun i s => ?_) _
  simp only [h.pAxis]
  rcases Point.axis v i with _ | a
  · rfl
  rcases Point.axis w i with _ | b
  · rfl
  show some _ = some _
  rw [← h.mul, ← h.add]

theorem lineDistance (l : LineSegment (PointN S n)) (p : PointN S n) :
    (l.mapPts (PointN.mapC φ)).distanceToPoint (p.mapC φ) = (l.distanceToPoint p).map φ := by
  unfold LineSegment.distanceToPoint
  simp only [LineSegment.mapPts, ← h.pSub, h.pSquaredLength, ← h.epsilon, h.lt]
  split
  · show some _ = some _
    rw [h.sqrt]
  · rename_i hg
    rw [h.dotLoop]
    rcases LineSegment.dotLoop (p - l.start) (l.end_ - l.start) with _ | d
    · rfl
    simp only [Option.map_some, Option.bind_eq_bind, Option.bind_some]
    have hg' : Scalar.lt (Point.squaredLength (l.end_ - l.start)) Scalar.epsilon = false := by
      simpa using hg
    rw [← h.div_guard _ _ (Or.inl hg'), ← h.lit 0, ← h.lit 1, h.lt]
    have e1 : ∀ (b : Bool) (x y : S), (if b = true then φ x else φ y) = φ (if b = true then x else y) := by
      intro b x y; split <;> rfl
    simp only [e1, h.lt]
    rw [← h.pMul, ← h.pAdd, ← h.pSub, h.pSquaredLength, ← h.sqrt]
    rfl

/-! ### Tests -/

theorem isAPoint (q : QuadraticBezier (PointN S n)) (c : CubicBezier (PointN S n)) (tol : S) :
    (q.mapPts (PointN.mapC φ)).isAPoint (φ tol) = q.isAPoint tol
      ∧ (c.mapPts (PointN.mapC φ)).isAPoint (φ tol) = c.isAPoint tol := by
  simp only [QuadraticBezier.isAPoint, CubicBezier.isAPoint, QuadraticBezier.mapPts,
    CubicBezier.mapPts, ← h.pSub, h.pSquaredLength, ← h.mul, h.le, and_self]

theorem quadraticColinear (q : QuadraticBezier (PointN S n)) (tol : S) :
    (q.mapPts (PointN.mapC φ)).arePointsColinear (φ tol) = q.arePointsColinear tol := by
  unfold QuadraticBezier.arePointsColinear
  simp only []
  have e := h.lineDistance q.baseline q.ctrl
  rw [show (q.mapPts (PointN.mapC φ)).baseline = q.baseline.mapPts (PointN.mapC φ) from rfl,
    show (q.mapPts (PointN.mapC φ)).ctrl = q.ctrl.mapC φ from rfl, e]
  rcases q.baseline.distanceToPoint q.ctrl with _ | d
  · rfl
  show some _ = some _
  rw [h.le]

theorem cubicColinear (c : CubicBezier (PointN S n)) (tol : S) :
    (c.mapPts (PointN.mapC φ)).arePointsColinear (φ tol) = c.arePointsColinear tol := by
  unfold CubicBezier.arePointsColinear
  simp only []
  rw [show (c.mapPts (PointN.mapC φ)).baseline = c.baseline.mapPts (PointN.mapC φ) from rfl,
    show (c.mapPts (PointN.mapC φ)).ctrl1 = c.ctrl1.mapC φ from rfl,
    show (c.mapPts (PointN.mapC φ)).ctrl2 = c.ctrl2.mapC φ from rfl,
    h.lineDistance c.baseline c.ctrl1, h.lineDistance c.baseline c.ctrl2]
  rcases c.baseline.distanceToPoint c.ctrl1 with _ | d
  · rfl
  simp only [Option.map_some, Option.bind_eq_bind, Option.bind_some, h.le]
  split
  · rcases c.baseline.distanceToPoint c.ctrl2 with _ | d
    · rfl
    show some _ = some _
    rw [h.le]
  · rfl

theorem isLinear (q : QuadraticBezier (PointN S n)) (c : CubicBezier (PointN S n))
    (s : BezierSegment (PointN S n)) (tol : S) :
    (q.mapPts (PointN.mapC φ)).isLinear (φ tol) = q.isLinear tol
      ∧ (c.mapPts (PointN.mapC φ)).isLinear (φ tol) = c.isLinear tol
      ∧ (s.mapPts (PointN.mapC φ)).isLinear (φ tol) = s.isLinear tol := by
  have hq : ∀ q : QuadraticBezier (PointN S n),
      (q.mapPts (PointN.mapC φ)).isLinear (φ tol) = q.isLinear tol := by
    intro q
    unfold QuadraticBezier.isLinear
    rw [h.quadraticColinear]
    simp only [QuadraticBezier.mapPts, ← h.pSub, h.pSquaredLength, ← h.epsilon, h.lt]
  have hc : ∀ c : CubicBezier (PointN S n),
      (c.mapPts (PointN.mapC φ)).isLinear (φ tol) = c.isLinear tol := by
    intro c
    unfold CubicBezier.isLinear
    rw [h.cubicColinear]
    simp only [CubicBezier.mapPts, ← h.pSub, h.pSquaredLength, ← h.epsilon, h.lt]
  refine ⟨hq q, hc c, ?_⟩
  cases s with
  | linear l => rfl
  | quadratic q => exact hq q
  | cubic c => exact hc c

/-! ### Roots -/

theorem fold_lit2 (x : S) : φ x / φ (Stroke.lit 2) = φ (x / Stroke.lit 2) := by
  rw [h.div_two, h.lit]

theorem fold_lit3 (x : S) : φ x / φ (Stroke.lit 3) = φ (x / Stroke.lit 3) := by
  rw [h.div_three, h.lit]

theorem fold_lit9 (x : S) : φ x / φ (Stroke.lit 9) = φ (x / Stroke.lit 9) := by
  rw [h.div_nine, h.lit]

theorem fold_lit54 (x : S) : φ x / φ (Stroke.lit 54) = φ (x / Stroke.lit 54) := by
  rw [h.div_54, h.lit]

theorem fold_guard {y : S} (hy : Scalar.lt (Scalar.abs y) Scalar.epsilon = false) (x : S) :
    φ x / φ y = φ (x / y) := (h.div_guard x y (Or.inr hy)).symm

theorem fold_double {y : S} (hy : Scalar.lt (Scalar.abs y) Scalar.epsilon = false) (x : S) :
    φ x / φ (y * Stroke.lit 2) = φ (x / (y * Stroke.lit 2)) := by
  rw [h.div_double x y hy, h.mul, h.lit]

theorem fold_acos (x y : S) : Scalar.acos (φ x / φ y) = φ (Scalar.acos (x / y)) :=
  (h.acos_div x y).symm

theorem fold_cbrt (x : S) :
    Scalar.signum (φ x) * Scalar.powf (φ (Scalar.abs x)) (φ (Stroke.lit 1 / Stroke.lit 3))
      = φ (Scalar.signum x * Scalar.powf (Scalar.abs x) (Stroke.lit 1 / Stroke.lit 3)) := by
  rw [h.cbrt, h.abs, h.div_three, h.lit]

theorem fold_pi : (piF32 : T) = φ piF32 := (h.lit _).symm

omit h in
theorem push (cap : ℕ) (l : List S) (x : S) :
    avPush cap (l.map φ) (φ x) = (avPush cap l x).map (List.map φ) := by
  unfold avPush
  rw [List.length_map]
  split
  · simp
  · rfl

omit h in
theorem pushNil (cap : ℕ) (x : S) :
    avPush cap [] (φ x) = (avPush cap [] x).map (List.map φ) := push cap [] x

theorem linearRoot (l : LineSegment (PointN S n)) (l' : LineSegment (PointN T n)) (a b : S) :
    l'.root (φ a) (φ b) = (l.root a b).map (List.map φ) := by
  unfold LineSegment.root
  rw [← h.abs, ← h.epsilon, h.lt]
  split
  · rfl
  · rename_i hg
    have hg' : Scalar.lt (Scalar.abs a) Scalar.epsilon = false := by simpa using hg
    rw [← h.neg, h.fold_guard hg', pushNil]

theorem rootsSquare (a b c : S) :
    Stroke.rootsSquare (φ a) (φ b) (φ c) = (Stroke.rootsSquare a b c).map (List.map φ) := by
  unfold Stroke.rootsSquare
  simp only [← h.abs, ← h.epsilon, h.lt, ← h.mul, ← h.sub, ← h.add, ← h.neg, ← h.lit, ← h.sqrt]
  by_cases ha : Scalar.lt (Scalar.abs a) Scalar.epsilon = true
  · simp only [ha, if_true]
    by_cases hb : Scalar.lt (Scalar.abs b) Scalar.epsilon = true
    · simp only [hb, if_true]; rfl
    · rw [Bool.not_eq_true] at hb
      simp only [hb, Bool.false_eq_true, if_false, h.fold_guard hb]
      rfl
  · rw [Bool.not_eq_true] at ha
    simp only [ha, Bool.false_eq_true, if_false, h.fold_double ha]
    split
    · rfl
    · split
      · rfl
      · rfl

theorem rootsCubic (a b c d : S) :
    Stroke.rootsCubic (φ a) (φ b) (φ c) (φ d)
      = (Stroke.rootsCubic a b c d).map (List.map φ) := by
  unfold Stroke.rootsCubic
  simp only [← h.abs, ← h.epsilon, h.lt, ← h.mul, ← h.sub, ← h.add, ← h.neg, ← h.lit, ← h.sqrt]
  by_cases ha : Scalar.lt (Scalar.abs a) Scalar.epsilon = true
  · simp only [ha, if_true]
    by_cases hb : Scalar.lt (Scalar.abs b) Scalar.epsilon = true
    · simp only [hb, if_true]
      by_cases hc : Scalar.lt (Scalar.abs c) Scalar.epsilon = true
      · simp only [hc, if_true]; rfl
      · rw [Bool.not_eq_true] at hc
        simp only [hc, Bool.false_eq_true, if_false, h.fold_guard hc]
        rfl
    · rw [Bool.not_eq_true] at hb
      simp only [hb, Bool.false_eq_true, if_false, h.fold_double hb]
      split
      · rfl
      · split
        · rfl
        · rfl
  · rw [Bool.not_eq_true] at ha
    simp only [ha, Bool.false_eq_true, if_false, h.fold_guard ha, ← h.abs, ← h.epsilon, h.lt, h.le,
      ← h.mul, ← h.sub, ← h.add, ← h.neg, ← h.sqrt, h.fold_lit9, h.fold_lit54, h.fold_lit3,
      h.fold_lit2, h.fold_cbrt, h.fold_acos, h.fold_pi, ← h.cos]
    split
    · split
      · rfl
      · rfl
    · rfl

theorem keepInside (l : List S) :
    Stroke.keepInside (l.map φ) = (Stroke.keepInside l).map (List.map φ) := by
  unfold Stroke.keepInside
  rw [List.foldlM_map]
  refine foldlM_map (m := Option) (List.map φ) _ _ (fun s r => ?_) l []
  rw [← h.lit 0, ← h.lit 1, h.lt, h.lt]
  split
  · exact push _ _ _
  · rfl

theorem quadraticSolve (q : QuadraticBezier (PointN S n)) (v : S) (i : ℕ) :
    (q.mapPts (PointN.mapC φ)).solveTForAxis (φ v) i
      = (q.solveTForAxis v i).map (List.map φ) := by
  have e1 := (h.isAPoint q (⟨q.start, q.ctrl, q.end_, q.end_⟩) Scalar.epsilon).1
  have e2 := h.quadraticColinear q (Stroke.lit 0)
  rw [h.epsilon] at e1
  rw [h.lit] at e2
  have hs := fun a b c => h.rootsSquare a b c
  unfold QuadraticBezier.solveTForAxis
  rw [e1, e2]
  simp only [QuadraticBezier.mapPts, ← h.pSub, h.pSquaredLength, ← h.epsilon, h.lt, h.pAxis]
  split
  · rfl
  · rcases q.arePointsColinear (Stroke.lit 0) with _ | col
    · rfl
    simp only [Option.bind_eq_bind, Option.bind_some, Option.pure_def]
    split
    · rfl
    · rcases Point.axis q.start i with _ | s
      · rfl
      rcases Point.axis q.ctrl i with _ | k
      · rfl
      rcases Point.axis q.end_ i with _ | e
      · rfl
      simp only [Option.map_some, Option.bind_some]
      rw [← h.lit (-2), ← h.lit 2, ← h.mul, ← h.mul, ← h.mul, ← h.add, ← h.add, ← h.add, ← h.sub]
      have hr := hs (s + k * Stroke.lit (-2) + e) (s * Stroke.lit (-2) + k * Stroke.lit 2) (s - v)
      change (Stroke.rootsSquare _ _ _).bind (fun r : List T => Stroke.keepInside r)
        = Option.map (List.map φ)
        ((Stroke.rootsSquare _ _ _).bind (fun r : List S => Stroke.keepInside r))
      rw [hr]
      rcases Stroke.rootsSquare (s + k * Stroke.lit (-2) + e)
        (s * Stroke.lit (-2) + k * Stroke.lit 2) (s - v) with _ | r
      · rfl
      exact h.keepInside r

theorem cubicSolve (c : CubicBezier (PointN S n)) (v : S) (i : ℕ) :
    (c.mapPts (PointN.mapC φ)).solveTForAxis (φ v) i
      = (c.solveTForAxis v i).map (List.map φ) := by
  have e1 := (h.isAPoint (⟨c.start, c.ctrl1, c.end_⟩) c Scalar.epsilon).2
  have e2 := h.cubicColinear c Scalar.epsilon
  rw [h.epsilon] at e1 e2
  have hs := fun a b c d => h.rootsCubic a b c d
  unfold CubicBezier.solveTForAxis
  rw [e1, e2]
  simp only [CubicBezier.mapPts, ← h.pSub, h.pSquaredLength, ← h.epsilon, h.lt, h.pAxis]
  split
  · rfl
  · rcases c.arePointsColinear Scalar.epsilon with _ | col
    · rfl
    simp only [Option.bind_eq_bind, Option.bind_some, Option.pure_def]
    split
    · rfl
    · rcases Point.axis c.start i with _ | p0
      · rfl
      rcases Point.axis c.ctrl1 i with _ | p1
      · rfl
      rcases Point.axis c.ctrl2 i with _ | p2
      · rfl
      rcases Point.axis c.end_ i with _ | p3
      · rfl
      simp only [Option.map_some, Option.bind_some]
      rw [← h.lit 3, ← h.lit 6]
      simp only [← h.mul, ← h.add, ← h.sub, ← h.neg]
      have hr := hs (-p0 + p1 * Stroke.lit 3 - p2 * Stroke.lit 3 + p3)
        (p0 * Stroke.lit 3 - p1 * Stroke.lit 6 + p2 * Stroke.lit 3)
        (-p0 * Stroke.lit 3 + p1 * Stroke.lit 3) (p0 - v)
      change (Stroke.rootsCubic _ _ _ _).bind (fun r : List T => Stroke.keepInside r)
        = Option.map (List.map φ)
        ((Stroke.rootsCubic _ _ _ _).bind (fun r : List S => Stroke.keepInside r))
      rw [hr]
      rcases Stroke.rootsCubic (-p0 + p1 * Stroke.lit 3 - p2 * Stroke.lit 3 + p3)
        (p0 * Stroke.lit 3 - p1 * Stroke.lit 6 + p2 * Stroke.lit 3)
        (-p0 * Stroke.lit 3 + p1 * Stroke.lit 3) (p0 - v) with _ | r
      · rfl
      exact h.keepInside r

/-! ### Coordinates and boxes -/

theorem axes (l : LineSegment (PointN S n)) (q : QuadraticBezier (PointN S n))
    (c : CubicBezier (PointN S n)) (t : S) (i : ℕ) :
    (l.mapPts (PointN.mapC φ)).axis (φ t) i = (l.axis t i).map φ
      ∧ (q.mapPts (PointN.mapC φ)).axis (φ t) i = (q.axis t i).map φ
      ∧ (q.mapPts (PointN.mapC φ)).dd (φ t) i = (q.dd t i).map φ
      ∧ (c.mapPts (PointN.mapC φ)).axis (φ t) i = (c.axis t i).map φ
      ∧ (c.mapPts (PointN.mapC φ)).dd (φ t) i = (c.dd t i).map φ := by
  refine ⟨?_, ?_, ?_, ?_, ?_⟩
  · simp only [LineSegment.axis, LineSegment.mapPts, h.pAxis]
    rcases Point.axis l.start i with _ | a
    · rfl
    rcases Point.axis l.end_ i with _ | b
    · rfl
    show some _ = some _
    simp only [h.add, h.sub, h.mul]
  · simp only [QuadraticBezier.axis, QuadraticBezier.mapPts, h.pAxis]
    rcases Point.axis q.start i with _ | a
    · rfl
    rcases Point.axis q.ctrl i with _ | k
    · rfl
    rcases Point.axis q.end_ i with _ | b
    · rfl
    show some _ = some _
    simp only [h.add, h.neg, h.lit, h.mul]
  · simp only [QuadraticBezier.dd, QuadraticBezier.mapPts, h.pAxis]
    rcases Point.axis q.start i with _ | a
    · rfl
    rcases Point.axis q.ctrl i with _ | k
    · rfl
    rcases Point.axis q.end_ i with _ | b
    · rfl
    show some _ = some _
    simp only [h.add, h.sub, h.lit, h.mul]
  · simp only [CubicBezier.axis, CubicBezier.mapPts, h.pAxis]
    rcases Point.axis c.start i with _ | a
    · rfl
    rcases Point.axis c.ctrl1 i with _ | k
    · rfl
    rcases Point.axis c.ctrl2 i with _ | k
    · rfl
    rcases Point.axis c.end_ i with _ | b
    · rfl
    show some _ = some _
    simp only [h.add, h.neg, h.lit, h.mul]
  · simp only [CubicBezier.dd, CubicBezier.mapPts, h.pAxis]
    rcases Point.axis c.start i with _ | a
    · rfl
    rcases Point.axis c.ctrl1 i with _ | k
    · rfl
    rcases Point.axis c.ctrl2 i with _ | k
    · rfl
    rcases Point.axis c.end_ i with _ | b
    · rfl
    show some _ = some _
    simp only [h.add, h.sub, h.lit, h.mul]

theorem partialCmp (a b : S) : Stroke.partialCmp (φ a) (φ b) = Stroke.partialCmp a b := by
  unfold Stroke.partialCmp
  rw [h.lt, h.eq, h.lt]

theorem insertSorted (x : S) (l : List S) :
    Stroke.insertSorted (φ x) (l.map φ) = (Stroke.insertSorted x l).map (List.map φ) := by
  induction l with
  | nil => rfl
  | cons y l ih =>
    simp only [List.map_cons, Stroke.insertSorted, h.partialCmp]
    rcases Stroke.partialCmp x y with _ | o
    · rfl
    cases o
    · rfl
    · rfl
    · simp only [ih]
      rcases Stroke.insertSorted x l with _ | r <;> rfl

theorem sortUnwrap (l : List S) :
    Stroke.sortUnwrap (l.map φ) = (Stroke.sortUnwrap l).map (List.map φ) := by
  induction l with
  | nil => rfl
  | cons x l ih =>
    simp only [List.map_cons, Stroke.sortUnwrap, ih]
    rcases Stroke.sortUnwrap l with _ | r
    · rfl
    exact h.insertSorted x r

omit h in
theorem extendNil (cap : ℕ) (l : List S) :
    avExtend cap [] (l.map φ) = (avExtend cap [] l).map (List.map φ) := by
  unfold avExtend
  rw [List.foldlM_map]
  exact foldlM_map (m := Option) (List.map φ) _ _ (fun s r => push _ _ _) l []

theorem filterInside (l : List S) :
    (l.map φ).filter (fun r : T => Scalar.lt (Stroke.lit 0) r && Scalar.lt r (Stroke.lit 1))
      = (l.filter fun r => Scalar.lt (Stroke.lit 0) r && Scalar.lt r (Stroke.lit 1)).map φ := by
  rw [List.filter_map]
  congr 1
  refine List.filter_congr fun x _ => ?_
  simp only [Function.comp, ← h.lit, h.lt]

omit h in
theorem mapMInside (f : S → Option S) (f' : T → Option T) (hf : ∀ x, f' (φ x) = (f x).map φ)
    (l : List S) : (l.map φ).mapM f' = (l.mapM f).map (List.map φ) := by
  induction l with
  | nil => rfl
  | cons x l ih =>
    simp only [List.map_cons, List.mapM_cons, ih, hf]
    rcases f x with _ | y
    · rfl
    rcases l.mapM f with _ | r <;> rfl

omit h in
theorem setArr {m : ℕ} (b : Arr (S × S) m) (i : ℕ) (v : S × S) :
    Arr.set? (fun k => ((φ (b k).1, φ (b k).2) : T × T)) i (φ v.1, φ v.2)
      = (b.set? i v).map fun b k => (φ (b k).1, φ (b k).2) :=
  set?_comp (fun v : S × S => (φ v.1, φ v.2)) b i v

/-- The common part of the two `axisBounds`: sorting the candidates and taking the extremes. -/
theorem extremes (cap : ℕ) (roots : Option (List S)) (f : S → Option S) (f' : T → Option T)
    (hf : ∀ x, f' (φ x) = (f x).map φ) (s e : Option S) :
    (do
      let extrema ← avExtend cap [] (← roots.map (List.map φ))
      let extrema := extrema.filter fun r : T =>
        Scalar.lt (Stroke.lit 0) r && Scalar.lt r (Stroke.lit 1)
      let extrema ← extrema.mapM f'
      let extrema ← avPush cap extrema (← s.map φ)
      let extrema ← avPush cap extrema (← e.map φ)
      let extrema ← Stroke.sortUnwrap extrema
      let lo ← extrema.head?
      let hi ← extrema.getLast?
      pure (lo, hi) : Option (T × T))
    = (do
      let extrema ← avExtend cap [] (← roots)
      let extrema := extrema.filter fun r : S =>
        Scalar.lt (Stroke.lit 0) r && Scalar.lt r (Stroke.lit 1)
      let extrema ← extrema.mapM f
      let extrema ← avPush cap extrema (← s)
      let extrema ← avPush cap extrema (← e)
      let extrema ← Stroke.sortUnwrap extrema
      let lo ← extrema.head?
      let hi ← extrema.getLast?
      pure (lo, hi) : Option (S × S)).map fun v => (φ v.1, φ v.2) := by
  rcases roots with _ | roots
  · rfl
  simp only [Option.map_some, Option.bind_eq_bind, Option.bind_some]
  rw [extendNil]
  rcases avExtend cap [] roots with _ | x
  · rfl
  simp only [Option.map_some, Option.bind_some]
  rw [h.filterInside, mapMInside f f' hf]
  rcases List.mapM f _ with _ | y
  · rfl
  rcases s with _ | s
  · rfl
  simp only [Option.map_some, Option.bind_some]
  rw [push]
  rcases avPush cap y s with _ | y
  · rfl
  rcases e with _ | e
  · rfl
  simp only [Option.map_some, Option.bind_some]
  rw [push]
  rcases avPush cap y e with _ | y
  · rfl
  simp only [Option.map_some, Option.bind_some]
  rw [h.sortUnwrap]
  rcases Stroke.sortUnwrap y with _ | z
  · rfl
  simp only [Option.map_some, Option.bind_some, List.head?_map, List.getLast?_map]
  rcases z.head? with _ | lo
  · rfl
  rcases z.getLast? with _ | hi <;> rfl

theorem lineBox (l : LineSegment (PointN S n)) :
    (l.mapPts (PointN.mapC φ)).boundingBox
      = l.boundingBox.map fun (b : Arr (S × S) n) k => (φ (b k).1, φ (b k).2) := by
  unfold LineSegment.boundingBox
  simp only [LineSegment.mapPts]
  rw [h.pIter l.start l.start]
  have e0 : (fun _ => (Stroke.lit 0, Stroke.lit 0) : Arr (T × T) n)
      = (fun (b : Arr (S × S) n) k => ((φ (b k).1, φ (b k).2) : T × T))
        fun _ => (Stroke.lit 0, Stroke.lit 0) := by
    funext i; simp only [h.lit]
  refine (congrArg (fun z => forRange 0 _ z _) e0).trans ?_
  refine forRange_hom (fun (b : Arr (S × S) n) k => ((φ (b k).1, φ (b k).2) : T × T)) _ _
    (fun i s => ?_) _
  simp only [h.pAxis]
  rcases Point.axis l.start i with _ | a
  · rfl
  rcases Point.axis l.end_ i with _ | b
  · rfl
  simp only [Option.map_some, Option.bind_eq_bind, Option.bind_some, h.lt]
  split
  · exact setArr s i (a, b)
  · exact setArr s i (b, a)

theorem quadraticBounds (q : QuadraticBezier (PointN S n)) (d : LineSegment (PointN S n))
    (a b : PointN S n) (i : ℕ) :
    (q.mapPts (PointN.mapC φ)).axisBounds (d.mapPts (PointN.mapC φ)) (a.mapC φ) (b.mapC φ) i
      = (q.axisBounds d a b i).map fun v => (φ v.1, φ v.2) := by
  unfold QuadraticBezier.axisBounds
  simp only [h.pAxis]
  rcases Point.axis a i with _ | ad
  · rfl
  rcases Point.axis b i with _ | bd
  · rfl
  simp only [Option.map_some, Option.bind_eq_bind, Option.bind_some]
  rw [h.linearRoot d _ ad bd]
  refine Eq.trans ?_ (h.extremes 3 (d.root ad bd) (fun t => Point.axis (q.evalCasteljau t) i)
    (fun t => Point.axis ((q.mapPts (PointN.mapC φ)).evalCasteljau t) i) (fun x => ?_)
    (Point.axis q.start i) (Point.axis q.end_ i))
  · simp only [← h.pAxis, QuadraticBezier.mapPts]; rfl
  · rw [(h.quadratic q x).2.1, h.pAxis]

theorem cubicBounds (c : CubicBezier (PointN S n)) (d : QuadraticBezier (PointN S n))
    (a b k : PointN S n) (i : ℕ) :
    (c.mapPts (PointN.mapC φ)).axisBounds (d.mapPts (PointN.mapC φ)) (a.mapC φ) (b.mapC φ)
        (k.mapC φ) i
      = (c.axisBounds d a b k i).map fun v => (φ v.1, φ v.2) := by
  unfold CubicBezier.axisBounds
  simp only [h.pAxis]
  rcases Point.axis a i with _ | ad
  · rfl
  rcases Point.axis b i with _ | bd
  · rfl
  rcases Point.axis k i with _ | kd
  · rfl
  simp only [Option.map_some, Option.bind_eq_bind, Option.bind_some]
  rw [show (d.mapPts (PointN.mapC φ)).realRoots (φ ad) (φ bd) (φ kd)
    = Stroke.rootsSquare (φ ad) (φ bd) (φ kd) from rfl, h.rootsSquare ad bd kd]
  refine Eq.trans ?_ (h.extremes 4 (Stroke.rootsSquare ad bd kd)
    (fun t => Point.axis (c.evalCasteljau t) i)
    (fun t => Point.axis ((c.mapPts (PointN.mapC φ)).evalCasteljau t) i) (fun x => ?_)
    (Point.axis c.start i) (Point.axis c.end_ i))
  · simp only [← h.pAxis, CubicBezier.mapPts]; rfl
  · rw [(h.cubic c x).2.1, h.pAxis]

theorem quadraticBox (q : QuadraticBezier (PointN S n)) :
    (q.mapPts (PointN.mapC φ)).boundingBox
      = q.boundingBox.map fun (b : Arr (S × S) n) k => (φ (b k).1, φ (b k).2) := by
  unfold QuadraticBezier.boundingBox
  simp only [(h.quadratic q (Stroke.lit 0)).2.2.2]
  have ea : ((q.derivative.mapPts (PointN.mapC φ)).start * (Stroke.lit (-1) : T)
        + (q.derivative.mapPts (PointN.mapC φ)).end_)
      = (q.derivative.start * (Stroke.lit (-1) : S) + q.derivative.end_).mapC φ := by
    rw [h.pAdd, h.pMul, h.lit]; rfl
  rw [ea, h.pIter _ (q.derivative.start * (Stroke.lit (-1) : S) + q.derivative.end_)]
  have e0 : (fun _ => (Stroke.lit 0, Stroke.lit 0) : Arr (T × T) n)
      = (fun (b : Arr (S × S) n) k => ((φ (b k).1, φ (b k).2) : T × T))
        fun _ => (Stroke.lit 0, Stroke.lit 0) := by
    funext i; simp only [h.lit]
  refine (congrArg (fun z => forRange 0 _ z _) e0).trans ?_
  refine forRange_hom (fun (b : Arr (S × S) n) k => ((φ (b k).1, φ (b k).2) : T × T)) _ _
    (fun i s => ?_) _
  rw [show (q.derivative.mapPts (PointN.mapC φ)).start = q.derivative.start.mapC φ from rfl,
    h.quadraticBounds]
  rcases q.axisBounds q.derivative (q.derivative.start * (Stroke.lit (-1) : S)
    + q.derivative.end_) q.derivative.start i with _ | v
  · rfl
  · exact setArr s i v

theorem cubicBox (c : CubicBezier (PointN S n)) :
    (c.mapPts (PointN.mapC φ)).boundingBox
      = c.boundingBox.map fun (b : Arr (S × S) n) k => (φ (b k).1, φ (b k).2) := by
  unfold CubicBezier.boundingBox
  simp only [(h.cubic c (Stroke.lit 0)).2.2.2]
  have ea : ((c.derivative.mapPts (PointN.mapC φ)).start
        + (c.derivative.mapPts (PointN.mapC φ)).ctrl * (Stroke.lit (-2) : T)
        + (c.derivative.mapPts (PointN.mapC φ)).end_)
      = (c.derivative.start + c.derivative.ctrl * (Stroke.lit (-2) : S)
        + c.derivative.end_).mapC φ := by
    rw [h.pAdd, h.pAdd, h.pMul, h.lit]; rfl
  have eb : ((c.derivative.mapPts (PointN.mapC φ)).start * (Stroke.lit (-2) : T)
        + (c.derivative.mapPts (PointN.mapC φ)).ctrl * (Stroke.lit 2 : T))
      = (c.derivative.start * (Stroke.lit (-2) : S)
        + c.derivative.ctrl * (Stroke.lit 2 : S)).mapC φ := by
    rw [h.pAdd, h.pMul, h.pMul, h.lit, h.lit]; rfl
  rw [ea, eb, h.pIter _ (c.derivative.start + c.derivative.ctrl * (Stroke.lit (-2) : S)
        + c.derivative.end_)]
  have e0 : (fun _ => (Stroke.lit 0, Stroke.lit 0) : Arr (T × T) n)
      = (fun (b : Arr (S × S) n) k => ((φ (b k).1, φ (b k).2) : T × T))
        fun _ => (Stroke.lit 0, Stroke.lit 0) := by
    funext i; simp only [h.lit]
  refine (congrArg (fun z => forRange 0 _ z _) e0).trans ?_
  refine forRange_hom (fun (b : Arr (S × S) n) k => ((φ (b k).1, φ (b k).2) : T × T)) _ _
    (fun i s => ?_) _
  rw [show (c.derivative.mapPts (PointN.mapC φ)).start = c.derivative.start.mapC φ from rfl,
    h.cubicBounds]
  rcases c.axisBounds c.derivative (c.derivative.start + c.derivative.ctrl * (Stroke.lit (-2) : S)
        + c.derivative.end_) (c.derivative.start * (Stroke.lit (-2) : S)
        + c.derivative.ctrl * (Stroke.lit 2 : S)) c.derivative.start i with _ | v
  · rfl
  · exact setArr s i v

/-! ### Equality -/

theorem equality (l l' : LineSegment (PointN S n)) (q q' : QuadraticBezier (PointN S n))
    (c c' : CubicBezier (PointN S n)) (s s' : BezierSegment (PointN S n)) :
    (l.mapPts (PointN.mapC φ)).eq (l'.mapPts (PointN.mapC φ)) = l.eq l'
      ∧ (q.mapPts (PointN.mapC φ)).eq (q'.mapPts (PointN.mapC φ)) = q.eq q'
      ∧ (c.mapPts (PointN.mapC φ)).eq (c'.mapPts (PointN.mapC φ)) = c.eq c'
      ∧ (s.mapPts (PointN.mapC φ)).eq (s'.mapPts (PointN.mapC φ)) = s.eq s' := by
  have el : ∀ l l' : LineSegment (PointN S n),
      (l.mapPts (PointN.mapC φ)).eq (l'.mapPts (PointN.mapC φ)) = l.eq l' :=
    fun l l' => by simp only [LineSegment.eq, LineSegment.mapPts, h.pEq]
  have eq : ∀ q q' : QuadraticBezier (PointN S n),
      (q.mapPts (PointN.mapC φ)).eq (q'.mapPts (PointN.mapC φ)) = q.eq q' :=
    fun q q' => by simp only [QuadraticBezier.eq, QuadraticBezier.mapPts, h.pEq]
  have ec : ∀ c c' : CubicBezier (PointN S n),
      (c.mapPts (PointN.mapC φ)).eq (c'.mapPts (PointN.mapC φ)) = c.eq c' :=
    fun c c' => by simp only [CubicBezier.eq, CubicBezier.mapPts, h.pEq]
  refine ⟨el l l', eq q q', ec c c', ?_⟩
  cases s <;> cases s' <;> first | exact el _ _ | exact eq _ _ | exact ec _ _ | rfl

/-! ### B-splines -/

section
variable {K C D : ℕ}

theorem decrease (l : List S) : anyDecrease (l.map φ) = anyDecrease l := by
  induction l with
  | nil => rfl
  | cons a l ih =>
    cases l with
    | nil => rfl
    | cons b l =>
      simp only [List.map_cons, anyDecrease, h.lt] at ih ⊢
      rw [ih]

omit h in
theorem toList (a : Arr S K) : Arr.toList (fun i => φ (a i)) = a.toList.map φ := by
  unfold Arr.toList
  rw [List.map_ofFn]; rfl

theorem near (l : List S) (x : S) :
    (l.map φ).all (fun k => Scalar.lt (Scalar.abs (k - φ x)) Scalar.epsilon)
      = l.all fun k => Scalar.lt (Scalar.abs (k - x)) Scalar.epsilon := by
  rw [List.all_map]
  congr 1
  funext k
  simp only [Function.comp, ← h.sub, ← h.abs, ← h.epsilon, h.lt]

theorem bsplineNew (knots : Arr S K) (ps : Arr (PointN S n) C) :
    BSpline.new (D := D) (fun i => φ (knots i)) (fun i => (ps i).mapC φ)
      = (BSpline.new (D := D) knots ps).mapOk (BSpline.mapC φ) := by
  unfold BSpline.new
  rw [toList, h.decrease]
  split_ifs
  · rfl
  · rfl
  · rfl
  · rfl
  · simp only [get?_comp φ knots]
    rcases knots.get? 0 with _ | a
    · rfl
    have e : (do Functor.map φ (knots.get? (← usub K 1))) = φ <$> (do knots.get? (← usub K 1)) := by
      rcases usub K 1 with _ | i <;> rfl
    rw [e]
    generalize (do knots.get? (← usub K 1)) = z
    rcases z with _ | z
    · rfl
    rw [← List.map_take, ← List.map_drop]
    show Outcome.ok _ = Outcome.ok _
    rw [h.near, h.near]
    rfl

theorem knotDomain (b : BSpline S (PointN S n) K C D) :
    (b.mapC φ).knotDomain = b.knotDomain.map fun d => (φ d.1, φ d.2) := by
  obtain ⟨knots, kind, ps⟩ := b
  cases kind <;>
    simp only [BSpline.mapC, BSpline.knotDomain, BSpline.knotDomainClamped,
      BSpline.knotDomainClampedStart, BSpline.knotDomainClampedEnd, BSpline.knotDomainUnclamped,
      get?_comp φ knots, Option.bind_eq_bind]
  · rcases knots.get? D with _ | a
    · rfl
    rcases knots.get? C with _ | a
    · rfl
    rfl
  · rcases knots.get? D with _ | a
    · rfl
    rcases usub K 1 with _ | i
    · rfl
    simp only [Option.bind_some]
    rcases knots.get? i with _ | a
    · rfl
    rfl
  · rcases knots.get? 0 with _ | a
    · rfl
    rcases usub K 1 with _ | i
    · rfl
    simp only [Option.bind_some]
    rcases usub i D with _ | i
    · rfl
    simp only [Option.bind_some]
    rcases knots.get? i with _ | a
    · rfl
    rfl
  · rcases knots.get? D with _ | a
    · rfl
    rcases usub K 1 with _ | i
    · rfl
    simp only [Option.bind_some]
    rcases usub i D with _ | i
    · rfl
    simp only [Option.bind_some]
    rcases knots.get? i with _ | a
    · rfl
    rfl

theorem spanUnclamped (knots : Arr S K) (t : S) (first count : ℕ) :
    BSpline.spanUnclampedLoop (fun i => φ (knots i)) (φ t) first count
      = BSpline.spanUnclampedLoop knots t first count := by
  induction count using Nat.strong_induction_on generalizing first with
  | _ count ih =>
    rw [BSpline.spanUnclampedLoop, BSpline.spanUnclampedLoop]
    split
    · rename_i hc
      simp only [get?_comp φ knots, Option.bind_eq_bind]
      rcases knots.get? (first + count / 2 + 1) with _ | k1
      · rfl
      rcases usub K 2 with _ | k2
      · rfl
      show (if _ then _ else _) = (if _ then _ else _)
      simp only [Option.bind_some, h.lt, h.eq]
      split
      · rfl
      · rcases knots.get? (first + count / 2) with _ | k0
        · rfl
        show (if _ then _ else _) = (if _ then _ else _)
        simp only [h.le]
        rw [ih _ (by omega), ih _ (by omega)]
    · rfl

theorem spanClamped (knots : Arr S K) (t : S) (low high : ℕ) :
    BSpline.spanClampedLoop (fun i => φ (knots i)) (φ t) low high
      = BSpline.spanClampedLoop knots t low high := by
  induction hm : high + 1 - low using Nat.strong_induction_on generalizing low high with
  | _ m ih =>
    rw [BSpline.spanClampedLoop, BSpline.spanClampedLoop]
    split
    · rename_i hl
      simp only [get?_comp φ knots, Option.bind_eq_bind]
      rcases knots.get? ((low + high) / 2) with _ | k0
      · rfl
      have e1 : ∀ l' h', h' + 1 - l' < m →
          BSpline.spanClampedLoop (fun i => φ (knots i)) (φ t) l' h'
            = BSpline.spanClampedLoop knots t l' h' := fun l' h' hl' => ih _ hl' _ _ rfl
      rw [e1 ((low + high) / 2 + 1) high (by omega)]
      have e2 : ((low + high) / 2 ≠ 0) →
          BSpline.spanClampedLoop (fun i => φ (knots i)) (φ t) low ((low + high) / 2 - 1)
            = BSpline.spanClampedLoop knots t low ((low + high) / 2 - 1) := fun h0 =>
        e1 _ _ (by omega)
      simp only [Option.map_eq_map, Option.map_some, Option.bind_some, h.le, h.lt]
      rcases knots.get? ((low + high) / 2 + 1) with _ | k1
      · by_cases h0 : (low + high) / 2 = 0
        · simp only [h0, if_true, Option.map_none, Option.bind_none]
        · simp only [h0, if_false, e2 h0, Option.map_none, Option.bind_none]
      · simp only [Option.map_some, Option.bind_some, h.lt]
        by_cases h0 : (low + high) / 2 = 0
        · simp only [h0, if_true]
        · simp only [h0, if_false, e2 h0]
    · rfl

theorem knotSpanStart (b : BSpline S (PointN S n) K C D) (t : S) :
    (b.mapC φ).knotSpanStart (φ t) = b.knotSpanStart t := by
  obtain ⟨knots, kind, ps⟩ := b
  cases kind <;>
    simp only [BSpline.mapC, BSpline.knotSpanStart, BSpline.spanUnclamped, BSpline.spanClamped,
      BSpline.spanClampedStart, BSpline.spanClampedEnd, spanClampedStartLoop_eq,
      spanClampedEndLoop_eq, h.spanUnclamped, h.spanClamped, get?_comp φ knots,
      Option.bind_eq_bind]
  · rcases usub C 1 with _ | m
    · rfl
    rcases usub K 1 with _ | l
    · rfl
    simp only [Option.bind_some]
    rcases knots.get? l with _ | a
    · rfl
    rcases knots.get? D with _ | b
    · simp only [Option.map_eq_map, Option.map_some, Option.bind_some, h.eq]; rfl
    simp only [Option.map_eq_map, Option.map_some, Option.bind_some, h.eq, h.lt]
  · rcases usub C 1 with _ | m
    · rfl
    simp only [Option.bind_some]
    rcases knots.get? (m + 1) with _ | a
    · rfl
    rcases knots.get? 0 with _ | b
    · simp only [Option.map_eq_map, Option.map_some, Option.bind_some, h.eq]; rfl
    simp only [Option.map_eq_map, Option.map_some, Option.bind_some, h.eq, h.lt]
  · rcases usub C 1 with _ | m
    · rfl
    simp only [Option.bind_some]
    rcases knots.get? (m + 1) with _ | a
    · rfl
    simp only [Option.map_eq_map, Option.map_some, Option.bind_some, h.eq]

theorem alpha (knots : Arr S K) (t : S) (k r j : ℕ) :
    BSpline.alpha (D := D) (fun i => φ (knots i)) (φ t) k r j
      = (BSpline.alpha (D := D) knots t k r j).mapOk φ := by
  unfold BSpline.alpha
  simp only [get?_comp φ knots, Option.bind_eq_bind]
  rcases usub (j + k) D with _ | i
  · rfl
  simp only [Option.bind_some]
  rcases knots.get? i with _ | kl
  · rfl
  rcases usub (j + 1 + k) r with _ | i
  · rfl
  simp only [Option.bind_some]
  rcases knots.get? i with _ | kr
  · rfl
  simp only [Option.map_eq_map, Option.map_some, Outcome.ofOption_some, Outcome.ok_bind]
  have e : (if Scalar.lt (φ t - φ kl) Scalar.epsilon = true then Stroke.lit 0
        else if Scalar.lt (Scalar.abs (φ kr - φ kl)) Scalar.epsilon = true then Stroke.lit 1
        else (φ t - φ kl) / (φ kr - φ kl))
      = φ (if Scalar.lt (t - kl) Scalar.epsilon = true then Stroke.lit 0
        else if Scalar.lt (Scalar.abs (kr - kl)) Scalar.epsilon = true then Stroke.lit 1
        else (t - kl) / (kr - kl)) := by
    simp only [← h.sub, ← h.abs, ← h.epsilon, h.lt]
    split
    · rw [h.lit]
    · split
      · rw [h.lit]
      · rename_i hg
        rw [Bool.not_eq_true] at hg
        rw [h.div_guard _ _ (Or.inr hg)]
  rw [e, h.isNaN]
  generalize (if Scalar.lt (t - kl) Scalar.epsilon = true then Stroke.lit 0
    else if Scalar.lt (Scalar.abs (kr - kl)) Scalar.epsilon = true then Stroke.lit 1
    else (t - kl) / (kr - kl)) = A
  split <;> rfl

theorem copyPoints (ps : Arr (PointN S n) C) (k : ℕ) (d : Arr (PointN S n) (D + 1)) :
    BSpline.copyPoints (fun i => (ps i).mapC φ) k (fun i => (d i).mapC φ)
      = (fun (d : Arr (PointN S n) (D + 1)) k => (d k).mapC φ) <$> BSpline.copyPoints ps k d := by
  unfold BSpline.copyPoints forRange
  refine foldlM_map (m := Option) (fun (d : Arr (PointN S n) (D + 1)) k => (d k).mapC φ) _ _
    (fun s j => ?_) _ d
  beta_reduce
  cases usub (j + k) D with
  | none => rfl
  | some i =>
    simp only [Option.bind_eq_bind, Option.bind_some, get?_comp (PointN.mapC φ)]
    cases ps.get? i with
    | none => rfl
    | some v => exact set?_comp (PointN.mapC φ) s j v

theorem deBoorRound (knots : Arr S K) (t : S) (k r : ℕ) (d : Arr (PointN S n) (D + 1)) :
    BSpline.deBoorRound (fun i => φ (knots i)) (φ t) k r (fun i => (d i).mapC φ)
      = (fun (d : Arr (PointN S n) (D + 1)) k => (d k).mapC φ)
        <$> BSpline.deBoorRound knots t k r d := by
  unfold BSpline.deBoorRound forRangeRev
  refine foldlM_map (m := Outcome) (fun (d : Arr (PointN S n) (D + 1)) k => (d k).mapC φ) _ _
    (fun s j => ?_) _ d
  beta_reduce
  rw [h.alpha]
  cases BSpline.alpha (D := D) knots t k r j with
  | err e => rfl
  | panic => rfl
  | ok a =>
    simp only [Outcome.ok_bind, Outcome.mapOk]
    cases usub j 1 with
    | none => rfl
    | some j' =>
      simp only [Option.bind_eq_bind, Option.bind_some, get?_comp (PointN.mapC φ)]
      cases Arr.get? s j' with
      | none => rfl
      | some dl =>
        cases Arr.get? s j with
        | none => rfl
        | some dj =>
          show Outcome.ofOption (Arr.set? (fun k => (s k).mapC φ) j
            (dl.mapC φ * (Stroke.lit 1 - φ a) + dj.mapC φ * φ a)) = _ <$> Outcome.ofOption
              (Arr.set? s j (dl * (Stroke.lit 1 - a) + dj * a))
          rw [← h.lit 1, ← h.sub, ← h.pMul, ← h.pMul, ← h.pAdd, set?_comp (PointN.mapC φ),
            ofOption_map]

theorem bsplineEval (b : BSpline S (PointN S n) K C D) (t : S) :
    (b.mapC φ).eval (φ t) = (b.eval t).mapOk (PointN.mapC φ) := by
  rw [mapOk_eq]
  unfold BSpline.eval
  rw [h.knotDomain]
  cases b.knotDomain with
  | none => rfl
  | some d =>
    obtain ⟨lo, hi⟩ := d
    simp only [Option.map_some, Outcome.ofOption_some, Outcome.ok_bind, h.lt]
    split
    · rfl
    · unfold BSpline.deBoorIterative
      rw [h.knotSpanStart, show (b.mapC φ).knots = fun i => φ (b.knots i) from rfl,
        show (b.mapC φ).control_points = fun i => (b.control_points i).mapC φ from rfl,
        get?_comp φ]
      cases b.knots.get? C with
      | none => rfl
      | some kC =>
        simp only [Option.map_eq_map, Option.map_some, Outcome.ofOption_some, Outcome.ok_bind, h.eq]
        split
        · cases usub C 1 with
          | none => rfl
          | some i =>
            simp only [Option.bind_eq_bind, Option.bind_some, get?_comp (PointN.mapC φ)]
            exact ofOption_map _ _
        · cases b.knotSpanStart t with
          | none => rfl
          | some o =>
            simp only [Outcome.ofOption_some, Outcome.ok_bind]
            cases o with
            | none => rfl
            | some k =>
              simp only []
              have h0 : (fun _ => Point.default : Arr (PointN T n) (D + 1))
                  = fun i => ((fun _ => Point.default : Arr (PointN S n) (D + 1)) i).mapC φ := by
                funext i; exact h.pDefault.symm
              rw [h0, h.copyPoints, ofOption_map, map_bind, bind_map_left]
              congr 1
              funext d
              rw [map_bind]
              have hl : forRange 1 (D + 1) (fun k => (d k).mapC φ)
                    (fun r d => BSpline.deBoorRound (fun i => φ (b.knots i)) (φ t) k r d)
                  = (fun (d : Arr (PointN S n) (D + 1)) k => (d k).mapC φ) <$> forRange 1 (D + 1) d
                    (fun r d => BSpline.deBoorRound b.knots t k r d) := by
                unfold forRange
                exact foldlM_map (m := Outcome)
                  (fun (d : Arr (PointN S n) (D + 1)) k => (d k).mapC φ) _ _
                  (fun s r => h.deBoorRound _ _ _ _ _) _ d
              rw [hl, bind_map_left]
              congr 1
              funext d'
              rw [get?_comp (PointN.mapC φ), ofOption_map]

theorem evalOrDefault (b : BSpline S (PointN S n) K C D) (t : S) :
    (b.mapC φ).evalOrDefault (φ t) = (b.evalOrDefault t).map (PointN.mapC φ) := by
  unfold BSpline.evalOrDefault
  rw [h.bsplineEval]
  cases b.eval t with
  | ok p => rfl
  | err e => simp [Outcome.mapOk, h.pDefault]
  | panic => rfl

theorem bsplineArclen (b : BSpline S (PointN S n) K C D) (k : ℕ) :
    (b.mapC φ).arclen k = (b.arclen k).map φ := by
  unfold BSpline.arclen
  rw [h.knotDomain]
  simp only [Option.bind_eq_bind]
  rcases b.knotDomain with _ | ⟨lo, hi⟩
  · rfl
  simp only [Option.map_some, Option.bind_some]
  rw [← h.lit 0]
  refine forRange_hom φ _ _ (fun i s => ?_) _
  have e1 : φ lo + Scalar.ofUsize i / Scalar.ofUsize k * (φ hi - φ lo)
      = φ (lo + Scalar.ofUsize i / Scalar.ofUsize k * (hi - lo)) := by
    rw [h.add, h.mul, h.sub, h.div_usize, h.ofUsize]
  have e2 : (Stroke.lit 1 / Scalar.ofUsize k : T) = φ (Stroke.lit 1 / Scalar.ofUsize k) := by
    rw [h.div_usize, h.lit]
  rw [e1, e2, ← h.add, h.evalOrDefault, h.evalOrDefault]
  rcases b.evalOrDefault (lo + Scalar.ofUsize i / Scalar.ofUsize k * (hi - lo)) with _ | p
  · rfl
  simp only [Option.map_some, Option.bind_some]
  rcases b.evalOrDefault (lo + Scalar.ofUsize i / Scalar.ofUsize k * (hi - lo)
    + Stroke.lit 1 / Scalar.ofUsize k) with _ | q
  · rfl
  show some _ = some _
  rw [← h.pSub, h.pSquaredLength, ← h.sqrt, ← h.add]

/-- `derivative` divides by differences of knots without a check. -/
theorem bsplineDerivative (b : BSpline S (PointN S n) K C D)
    (hd : ∀ i kr kl, b.knots.get? (i + D + 1) = some kr → b.knots.get? (i + 1) = some kl →
      ∀ x, φ (x / (kr - kl)) = φ x / φ (kr - kl)) :
    (b.mapC φ).derivative = b.derivative.map (BSpline.mapC φ) := by
  unfold BSpline.derivative
  have h0 : (fun _ => Point.default : Arr (PointN T n) (C - 1))
      = fun i => ((fun _ => Point.default : Arr (PointN S n) (C - 1)) i).mapC φ := by
    funext i; exact h.pDefault.symm
  simp only [h0]
  let body : ℕ → Arr (PointN S n) (C - 1) → Option (Bool × Arr (PointN S n) (C - 1)) :=
    fun i new_points => do
      let p1 ← b.control_points.get? (i + 1)
      let p0 ← b.control_points.get? i
      let kr ← b.knots.get? (i + D + 1)
      let kl ← b.knots.get? (i + 1)
      let new_points ← new_points.set? i
        ((p1 - p0) * (Scalar.ofUsize D / (kr - kl) : S))
      let last ← usub C 2
      pure (i == last, new_points)
  rw [forBreak_map (m := Option) (fun (d : Arr (PointN S n) (C - 1)) k => (d k).mapC φ) body]
  · show _ = Option.map _ (forBreak body _ _ >>= _)
    cases forBreak body (List.range C) (fun _ => (Point.default : PointN S n)) with
    | none => rfl
    | some d => rfl
  · intro i s
    rw [show (b.mapC φ).knots = fun i => φ (b.knots i) from rfl,
        show (b.mapC φ).control_points = fun i => (b.control_points i).mapC φ from rfl]
    simp only [get?_comp φ, get?_comp (PointN.mapC φ), body]
    cases b.control_points.get? (i + 1) with
    | none => rfl
    | some p1 =>
      cases b.control_points.get? i with
      | none => rfl
      | some p0 =>
        cases hkr : b.knots.get? (i + D + 1) with
        | none => rfl
        | some kr =>
          cases hkl : b.knots.get? (i + 1) with
          | none => rfl
          | some kl =>
            show (Arr.set? (fun k => (s k).mapC φ) i
              ((p1.mapC φ - p0.mapC φ) * (Scalar.ofUsize D / (φ kr - φ kl) : T))).bind _ = _
            have e : (Scalar.ofUsize D / (φ kr - φ kl) : T) = φ (Scalar.ofUsize D / (kr - kl)) := by
              rw [hd i kr kl hkr hkl, h.ofUsize, h.sub]
            rw [e, ← h.pSub, ← h.pMul, set?_comp (PointN.mapC φ)]
            simp only [Option.bind_eq_bind, Option.bind_some]
            cases Arr.set? s i ((p1 - p0) * (Scalar.ofUsize D / (kr - kl) : S)) with
            | none => rfl
            | some s' =>
              cases usub C 2 with
              | none => rfl
              | some l => rfl

end

end ScalarMap

end Stroke
