import Verif.Spec.Float
import Verif.Model.Segment
import Verif.Model.Bezier
import Verif.Model.BSpline

/-!
# Floating point with two zeros

`SFl F` are the values of the format `F` with the IEEE 754 distinction of +0 and -0; the operations
follow the rules of the standard for the sign of a zero (rounding to nearest).  Verif/Spec/Float.lean
identifies the two zeros; Verif/Props/SignedZero.lean shows that this loses nothing.
-/

namespace Stroke

/-- The floating-point values of the format `F`, with signed zeros. -/
inductive SFl (F : FloatFormat) where
  | nan
  | inf (neg : Bool)
  | zero (neg : Bool)
  | fin (r : ℝ) (h : r ∈ F.grid ∧ |r| ≤ F.max) (h0 : r ≠ 0)

namespace SFl

variable {F : FloatFormat}

/-- The value without the sign of a zero. -/
noncomputable def forget : SFl F → Fl F
  | nan => .nan
  | inf s => .inf s
  | zero _ => F.round 0
  | fin r h _ => .fin r h

/-- The result of an operation whose exact value is `x`.  A non-zero `x` that is rounded to zero
gives the zero of its own sign; an exact zero gives +0. -/
noncomputable def round (F : FloatFormat) (x : ℝ) : SFl F :=
  open Classical in
  if h0 : F.rnd x = 0 then zero (decide (x < 0))
  else if h : |F.rnd x| ≤ F.max then fin (F.rnd x) ⟨F.rnd_mem x, h⟩ h0
  else inf (decide (x < 0))

/-- The value of `Fl F`, zero as +0: for the results of library functions. -/
noncomputable def ofFl : Fl F → SFl F
  | .nan => nan
  | .inf s => inf s
  | .fin r h => open Classical in if h0 : r = 0 then zero false else fin r h h0

noncomputable def neg : SFl F → SFl F
  | nan => nan
  | inf s => inf (!s)
  | zero s => zero (!s)
  | fin r h h0 => fin (-r) ⟨F.neg_mem r h.1, by rw [abs_neg]; exact h.2⟩ (neg_ne_zero.2 h0)

/-- `-0 + -0` is -0, other sums of zeros are +0. -/
noncomputable def add : SFl F → SFl F → SFl F
  | nan, _ => nan
  | _, nan => nan
  | inf s, inf s' => if s = s' then inf s else nan
  | inf s, _ => inf s
  | _, inf s => inf s
  | zero s, zero s' => zero (s && s')
  | zero _, fin b h h0 => fin b h h0
  | fin a h h0, zero _ => fin a h h0
  | fin a _ _, fin b _ _ => round F (a + b)

/-- Signs are multiplied, also those of zeros. -/
noncomputable def mul : SFl F → SFl F → SFl F
  | nan, _ => nan
  | _, nan => nan
  | inf s, inf s' => inf (s != s')
  | inf _, zero _ => nan
  | zero _, inf _ => nan
  | inf s, fin b _ _ => open Classical in inf (s != decide (b < 0))
  | fin a _ _, inf s => open Classical in inf (s != decide (a < 0))
  | zero s, zero s' => zero (s != s')
  | zero s, fin b _ _ => open Classical in zero (s != decide (b < 0))
  | fin a _ _, zero s => open Classical in zero (s != decide (a < 0))
  | fin a _ _, fin b _ _ => round F (a * b)

/-- The sign of a zero divisor decides the sign of the infinite quotient. -/
noncomputable def div : SFl F → SFl F → SFl F
  | nan, _ => nan
  | _, nan => nan
  | inf _, inf _ => nan
  | inf s, zero s' => inf (s != s')
  | inf s, fin b _ _ => open Classical in inf (s != decide (b < 0))
  | zero s, inf s' => zero (s != s')
  | fin a _ _, inf s' => open Classical in zero (s' != decide (a < 0))
  | zero _, zero _ => nan
  | fin a _ _, zero s => open Classical in inf (s != decide (a < 0))
  | zero s, fin b _ _ => open Classical in zero (s != decide (b < 0))
  | fin a _ _, fin b _ _ => round F (a / b)

noncomputable def abs : SFl F → SFl F
  | nan => nan
  | inf _ => inf false
  | zero _ => zero false
  | fin r h h0 => fin |r| ⟨by
      rcases abs_choice r with e | e <;> rw [e]
      · exact h.1
      · exact F.neg_mem r h.1, by rw [abs_abs]; exact h.2⟩ (abs_ne_zero.2 h0)

/-- The square root of -0 is -0. -/
noncomputable def sqrt : SFl F → SFl F
  | nan => nan
  | inf true => nan
  | inf false => inf false
  | zero s => zero s
  | fin r _ _ => open Classical in if r < 0 then nan else round F (Real.sqrt r)

/-- The sign of -0 is -1. -/
noncomputable def signum : SFl F → SFl F
  | nan => nan
  | inf s => if s then round F (-1) else round F 1
  | zero s => if s then round F (-1) else round F 1
  | fin r _ _ => open Classical in if r < 0 then round F (-1) else round F 1

/-- Comparisons do not see the sign of a zero; the library functions are not sensitive to it
(`powf` is only called with absolute values). -/
noncomputable instance instScalar : Scalar (SFl F) where
  add := add
  sub x y := add x (neg y)
  mul := mul
  div := div
  neg := neg
  lit q := round F (q : ℝ)
  ofUsize n := round F (n : ℝ)
  lt x y := x.forget.lt y.forget
  le x y := x.forget.le y.forget
  eq x y := x.forget.beq y.forget
  abs := abs
  sqrt := sqrt
  cos x := ofFl x.forget.cos
  acos x := ofFl x.forget.acos
  signum := signum
  powf x y := ofFl (x.forget.powf y.forget)
  isNaN x := x.forget.isNaN
  epsilon := round F F.epsilon

/-- The system's `powf` of zero and the rounded 1/3 is zero. -/
def PowZero (F : FloatFormat) : Prop := F.powImpl 0 (F.rnd (1 / 3)) = 0

/-- A difference of different numbers is not rounded to zero. -/
def GradualUnderflow (F : FloatFormat) : Prop :=
  ∀ a ∈ F.grid, ∀ b ∈ F.grid, a ≠ b → F.rnd (a - b) ≠ 0

end SFl

/-! ### Equality up to the signs of zeros -/

/-- `x ∼₀ y`: the two values are the same up to the signs of zeros in them. -/
class SameZero (α : Type) where
  same : α → α → Prop

@[inherit_doc] scoped infix:50 " ∼₀ " => SameZero.same

instance {F : FloatFormat} : SameZero (SFl F) where
  same x y := x = y ∨ ∃ s s', x = .zero s ∧ y = .zero s'

section
variable {α β : Type} [SameZero α] [SameZero β]

/-- Both panic, or both return the same. -/
instance : SameZero (Option α) where
  same x y := match x, y with
    | none, none => True
    | some a, some b => a ∼₀ b
    | _, _ => False

/-- Both panic, both return the same error, or both return the same. -/
instance : SameZero (Outcome α) where
  same x y := match x, y with
    | .panic, .panic => True
    | .err e, .err e' => e = e'
    | .ok a, .ok b => a ∼₀ b
    | _, _ => False

instance : SameZero (List α) where
  same := List.Forall₂ (· ∼₀ ·)

instance : SameZero (α × β) where
  same x y := x.1 ∼₀ y.1 ∧ x.2 ∼₀ y.2

instance {n : ℕ} : SameZero (Arr α n) where
  same x y := ∀ i, x i ∼₀ y i

instance {n : ℕ} : SameZero (PointN α n) where
  same p q := ∀ i, p.coords i ∼₀ q.coords i

instance : SameZero (LineSegment α) where
  same a b := a.start ∼₀ b.start ∧ a.end_ ∼₀ b.end_

instance : SameZero (QuadraticBezier α) where
  same a b := a.start ∼₀ b.start ∧ a.ctrl ∼₀ b.ctrl ∧ a.end_ ∼₀ b.end_

instance : SameZero (CubicBezier α) where
  same a b := a.start ∼₀ b.start ∧ a.ctrl1 ∼₀ b.ctrl1 ∧ a.ctrl2 ∼₀ b.ctrl2 ∧ a.end_ ∼₀ b.end_

instance : SameZero (BezierSegment α) where
  same a b := match a, b with
    | .linear a, .linear b => a ∼₀ b
    | .quadratic a, .quadratic b => a ∼₀ b
    | .cubic a, .cubic b => a ∼₀ b
    | _, _ => False

instance {N : ℕ} : SameZero (Bezier α N) where
  same a b := ∀ i, a.control_points i ∼₀ b.control_points i

instance {K C D : ℕ} : SameZero (BSpline α β K C D) where
  same a b := (∀ i, a.knots i ∼₀ b.knots i) ∧ a.knot_kind = b.knot_kind
    ∧ ∀ i, a.control_points i ∼₀ b.control_points i

end

end Stroke
