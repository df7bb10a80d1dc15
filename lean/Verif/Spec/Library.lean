import Verif.Spec.Float
import Mathlib.Analysis.SpecialFunctions.Trigonometric.Inverse
import Mathlib.Analysis.SpecialFunctions.Pow.Real

/-!
# The accuracy of the system's mathematical functions

`FloatFormat` assumes nothing about `cos`, `acos` and `powf`.  Theorems about code which uses
their values need to know that these functions are accurate.
-/

namespace Stroke

/-- The system's `cos`, `acos` and `powf` have errors of at most `τ` (for `powf`: absolute plus
relative) before rounding, for angles up to 8 and for bases up to `X` with exponents in [0, 1]. -/
structure AccurateLibrary (F : FloatFormat) (τ X : ℝ) : Prop where
  cos : ∀ x, |x| ≤ 8 → |F.cosImpl x - Real.cos x| ≤ τ
  acos : ∀ x, |x| ≤ 1 → |F.acosImpl x - Real.arccos x| ≤ τ
  pow : ∀ x y, 0 ≤ x → x ≤ X → 0 ≤ y → y ≤ 1 → |F.powImpl x y - x ^ y| ≤ τ * (1 + x ^ y)

end Stroke
