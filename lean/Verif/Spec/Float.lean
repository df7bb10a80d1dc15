import Verif.Spec.Exact
import Mathlib.Data.EReal.Basic

/-!
# Floating point: the model over rounded arithmetic with NaN and infinities

`FloatFormat` describes a floating-point format together with a rounding function by the few laws
the proofs use.  Every theorem about floats is proved for every such format; the IEEE formats
binary64 and binary32 with rounding to nearest, ties to even, are instances
(Verif/Lemmas/Ieee.lean).

`Fl F` are the values of the format: NaN, the two infinities and the finite values.
Simplification: +0 and -0, which are `==` to each other, are the same value of `Fl F`.  The sign
of a zero is observable only through division by zero; a zero divisor counts as +0.
C107 (Verif/Props/SignedZero.lean) shows that this does not change the results.
-/

namespace Stroke

/-- A floating-point format with a rounding function. -/
structure FloatFormat where
  /-- the values of the format, ignoring the upper limit of the exponent -/
  grid : Set ℝ
  /-- rounding to `grid` -/
  rnd : ℝ → ℝ
  /-- the largest finite value -/
  max : ℝ
  /-- unit roundoff (2⁻⁵³ for binary64) -/
  u : ℝ
  /-- largest rounding error in the range of subnormal numbers (2⁻¹⁰⁷⁵ for binary64) -/
  eta : ℝ
  /-- the constant `EPSILON` (2⁻⁵² for binary64) -/
  epsilon : ℝ
  /-- the system's `cos`, `acos` and `powf` before rounding: nothing is assumed about them -/
  cosImpl : ℝ → ℝ
  acosImpl : ℝ → ℝ
  powImpl : ℝ → ℝ → ℝ
  rnd_mem : ∀ x, rnd x ∈ grid
  rnd_of_mem : ∀ x ∈ grid, rnd x = x
  rnd_mono : Monotone rnd
  rnd_err : ∀ x, |rnd x - x| ≤ u * |x| + eta
  u_nonneg : 0 ≤ u
  eta_nonneg : 0 ≤ eta
  neg_mem : ∀ x ∈ grid, -x ∈ grid
  int_mem : ∀ n : ℤ, |n| ≤ 1024 → (n : ℝ) ∈ grid
  max_mem : max ∈ grid
  max_ge : 1024 ≤ max
  epsilon_mem : epsilon ∈ grid
  epsilon_pos : 0 < epsilon
  epsilon_le : epsilon ≤ 1

/-- The floating-point values of the format `F`. -/
inductive Fl (F : FloatFormat) where
  | nan
  /-- infinity; the argument is the sign bit -/
  | inf (neg : Bool)
  | fin (r : ℝ) (h : r ∈ F.grid ∧ |r| ≤ F.max)

namespace FloatFormat

/-- The result of an operation whose exact value is `x`: rounded, or infinite on overflow. -/
noncomputable def round (F : FloatFormat) (x : ℝ) : Fl F :=
  open Classical in
  if h : |F.rnd x| ≤ F.max then .fin (F.rnd x) ⟨F.rnd_mem x, h⟩ else .inf (decide (x < 0))

end FloatFormat

namespace Fl

variable {F : FloatFormat}

/-- The value as an extended real number; NaN has none. -/
noncomputable def val? : Fl F → Option EReal
  | nan => none
  | inf true => some ⊥
  | inf false => some ⊤
  | fin r _ => some (r : EReal)

/-- The value is neither NaN nor infinite. -/
def IsFinite : Fl F → Prop
  | fin _ _ => True
  | _ => False

/-- The value of a finite float (0 for the others). -/
noncomputable def toReal : Fl F → ℝ
  | fin r _ => r
  | _ => 0

noncomputable def neg : Fl F → Fl F
  | nan => nan
  | inf s => inf (!s)
  | fin r h => fin (-r) ⟨F.neg_mem r h.1, by rw [abs_neg]; exact h.2⟩

noncomputable def add : Fl F → Fl F → Fl F
  | nan, _ => nan
  | _, nan => nan
  | inf s, inf s' => if s = s' then inf s else nan
  | inf s, fin _ _ => inf s
  | fin _ _, inf s => inf s
  | fin a _, fin b _ => F.round (a + b)

noncomputable def mul : Fl F → Fl F → Fl F
  | nan, _ => nan
  | _, nan => nan
  | inf s, inf s' => inf (s != s')
  | inf s, fin b _ => open Classical in if b = 0 then nan else inf (s != decide (b < 0))
  | fin a _, inf s => open Classical in if a = 0 then nan else inf (s != decide (a < 0))
  | fin a _, fin b _ => F.round (a * b)

noncomputable def div : Fl F → Fl F → Fl F
  | nan, _ => nan
  | _, nan => nan
  | inf _, inf _ => nan
  | inf s, fin b _ => open Classical in inf (s != decide (b < 0))
  | fin _ _, inf _ => F.round 0
  | fin a _, fin b _ => open Classical in
    if b = 0 then (if a = 0 then nan else inf (decide (a < 0))) else F.round (a / b)

noncomputable def abs : Fl F → Fl F
  | nan => nan
  | inf _ => inf false
  | fin r h => fin |r| ⟨by
      rcases abs_choice r with e | e <;> rw [e]
      · exact h.1
      · exact F.neg_mem r h.1, by rw [abs_abs]; exact h.2⟩

noncomputable def sqrt : Fl F → Fl F
  | nan => nan
  | inf true => nan
  | inf false => inf false
  | fin r _ => open Classical in if r < 0 then nan else F.round (Real.sqrt r)

noncomputable def cos : Fl F → Fl F
  | fin r _ => F.round (F.cosImpl r)
  | _ => nan

noncomputable def acos : Fl F → Fl F
  | fin r _ => open Classical in if |r| ≤ 1 then F.round (F.acosImpl r) else nan
  | _ => nan

noncomputable def signum : Fl F → Fl F
  | nan => nan
  | inf s => if s then F.round (-1) else F.round 1
  | fin r _ => open Classical in if r < 0 then F.round (-1) else F.round 1

/-- Simplification: the crate only calls `powf` with a base that is an absolute value and the
exponent 1/3; only finite exponents and non-negative bases are modelled, everything else is
NaN. -/
noncomputable def powf : Fl F → Fl F → Fl F
  | fin a _, fin b _ => open Classical in if a < 0 then nan else F.round (F.powImpl a b)
  | inf false, fin b _ => open Classical in
    if 0 < b then inf false else if b = 0 then F.round 1 else F.round 0
  | _, _ => nan

noncomputable def lt (x y : Fl F) : Bool :=
  match x.val?, y.val? with
  | some a, some b => open Classical in decide (a < b)
  | _, _ => false

noncomputable def le (x y : Fl F) : Bool :=
  match x.val?, y.val? with
  | some a, some b => open Classical in decide (a ≤ b)
  | _, _ => false

noncomputable def beq (x y : Fl F) : Bool :=
  match x.val?, y.val? with
  | some a, some b => open Classical in decide (a = b)
  | _, _ => false

def isNaN : Fl F → Bool
  | nan => true
  | _ => false

noncomputable instance instScalar : Scalar (Fl F) where
  add := add
  sub x y := add x (neg y)
  mul := mul
  div := div
  neg := neg
  lit q := F.round (q : ℝ)
  ofUsize n := F.round (n : ℝ)
  lt := lt
  le := le
  eq := beq
  abs := abs
  sqrt := sqrt
  cos := cos
  acos := acos
  signum := signum
  powf := powf
  isNaN := isNaN
  epsilon := F.round F.epsilon

end Fl

end Stroke
