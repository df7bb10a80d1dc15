import Verif.Props.Cubic

/-!
# Properties of `BezierSegment` and of the plain accessors (C42, C59)
-/

namespace Stroke

section AnyScalar
variable {S P : Type} [Scalar S] [Point S P]

/-- **C42**: a segment built with `From` behaves as the wrapped line (every scalar
type). -/
theorem C42_line (l : LineSegment P) (t tol : S) :
    (BezierSegment.ofLine l).eval t = l.eval t ∧
    (BezierSegment.ofLine l).start = l.start ∧ (BezierSegment.ofLine l).end_ = l.end_ ∧
    (BezierSegment.ofLine l).isLinear tol = some true ∧
    (BezierSegment.ofLine l).baseline = l ∧
    (BezierSegment.ofLine l).split t
      = (BezierSegment.ofLine (l.split t).1, BezierSegment.ofLine (l.split t).2) :=
  ⟨rfl, rfl, rfl, rfl, rfl, rfl⟩

/-- **C42**: ... as the wrapped quadratic curve. -/
theorem C42_quadratic (q : QuadraticBezier P) (t tol : S) :
    (BezierSegment.ofQuadratic q).eval t = q.eval t ∧
    (BezierSegment.ofQuadratic q).start = q.start ∧ (BezierSegment.ofQuadratic q).end_ = q.end_ ∧
    (BezierSegment.ofQuadratic q).isLinear tol = q.isLinear tol ∧
    (BezierSegment.ofQuadratic q).baseline = q.baseline ∧
    (BezierSegment.ofQuadratic q).split t
      = (BezierSegment.ofQuadratic (q.split t).1, BezierSegment.ofQuadratic (q.split t).2) :=
  ⟨rfl, rfl, rfl, rfl, rfl, rfl⟩

/-- **C42**: ... as the wrapped cubic curve. -/
theorem C42_cubic (c : CubicBezier P) (t tol : S) :
    (BezierSegment.ofCubic c).eval t = c.eval t ∧
    (BezierSegment.ofCubic c).start = c.start ∧ (BezierSegment.ofCubic c).end_ = c.end_ ∧
    (BezierSegment.ofCubic c).isLinear tol = c.isLinear tol ∧
    (BezierSegment.ofCubic c).baseline = c.baseline ∧
    (BezierSegment.ofCubic c).split t
      = (BezierSegment.ofCubic (c.split t).1, BezierSegment.ofCubic (c.split t).2) :=
  ⟨rfl, rfl, rfl, rfl, rfl, rfl⟩

omit [Scalar S] in
/-- **C59**: constructors store their arguments; `baseline` joins start and end;
`control_points` lists the defining points in order. -/
theorem C59_accessors (a b c d : P) :
    (LineSegment.new a b).start = a ∧ (LineSegment.new a b).end_ = b ∧
    (QuadraticBezier.new a b c).controlPoints = [a, b, c] ∧
    (QuadraticBezier.new a b c).start = a ∧ (QuadraticBezier.new a b c).ctrl = b ∧
    (QuadraticBezier.new a b c).end_ = c ∧
    (QuadraticBezier.new a b c).baseline = LineSegment.new a c ∧
    (CubicBezier.new a b c d).controlPoints = [a, b, c, d] ∧
    (CubicBezier.new a b c d).start = a ∧ (CubicBezier.new a b c d).ctrl1 = b ∧
    (CubicBezier.new a b c d).ctrl2 = c ∧ (CubicBezier.new a b c d).end_ = d ∧
    (CubicBezier.new a b c d).baseline = LineSegment.new a d :=
  ⟨rfl, rfl, rfl, rfl, rfl, rfl, rfl, rfl, rfl, rfl, rfl, rfl, rfl⟩

end AnyScalar

section Exact
variable {P : Type} [Point ℝ P] [LawfulPoint P]

/-- **C42**: for every segment, `start()` is `eval(0)`, `end()` is `eval(1)`, and
`baseline()` joins `start()` and `end()`. -/
theorem C42_endpoints (s : BezierSegment P) :
    s.start = s.eval (0 : ℝ) ∧ s.end_ = s.eval (1 : ℝ) ∧
    s.baseline.start = s.start ∧ s.baseline.end_ = s.end_ := by
  cases s with
  | linear l => exact ⟨(C05_endpoints l).1.symm, (C05_endpoints l).2.symm, rfl, rfl⟩
  | quadratic q => exact ⟨(C10_endpoints q).1.symm, (C10_endpoints q).2.symm, rfl, rfl⟩
  | cubic c => exact ⟨(C20_endpoints c).1.symm, (C20_endpoints c).2.symm, rfl, rfl⟩

/-- **C42**: splitting a quadratic or cubic segment cuts it at `t`; the pieces have
the same variant and join. -/
theorem C42_split (s : BezierSegment P) (hs : ∀ l, s ≠ .linear l) (t u : ℝ) :
    (s.split t).1.eval u = s.eval (t * u) ∧ (s.split t).2.eval u = s.eval (t + (1 - t) * u) ∧
    (s.split t).1.start = s.start ∧ (s.split t).1.end_ = s.eval t ∧
    (s.split t).2.start = s.eval t ∧ (s.split t).2.end_ = s.end_ := by
  cases s with
  | linear l => exact absurd rfl (hs l)
  | quadratic q =>
    refine ⟨(C11_split q t u).1, (C11_split q t u).2, rfl, ?_, ?_, rfl⟩
    · exact (C10_methods_agree q t).symm
    · exact (C10_methods_agree q t).symm
  | cubic c =>
    refine ⟨(C21_split c t u).1, (C21_split c t u).2, rfl, ?_, ?_, rfl⟩
    · exact (C20_methods_agree c t).symm
    · exact (C20_methods_agree c t).symm

/-- Test: a segment meeting the hypothesis of `C42_split`. -/
example : ∀ l, BezierSegment.ofQuadratic (QuadraticBezier.new (pt2 0 0) (pt2 1 1) (pt2 2 0))
    ≠ .linear l := by
  intro l h; cases h

/-- Linear segments inherit the defect of `LineSegment::split` (see `C06_false`):
the pieces of a segment with distinct ends do not join at `eval(t)`, `t ≠ 0`. -/
theorem C42_split_linear_false (l : LineSegment P) (hl : l.start ≠ l.end_) (t : ℝ) (ht : t ≠ 0) :
    ((BezierSegment.ofLine l).split t).1.end_ ≠ (BezierSegment.ofLine l).eval t := by
  have h := (C06_false l hl t ht).1
  rw [(C05_endpoints _).2] at h
  exact h

end Exact

end Stroke
