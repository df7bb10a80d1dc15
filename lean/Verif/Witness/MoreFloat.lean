import Verif.Witness.Float
import Verif.Props.Culling
import Verif.Props.FloatReverse

/-!
# Witnesses: more theorems about floating point

For theorems without an example of their own next to them: each is applied to a concrete curve in
double precision, which shows that its hypotheses can be met.
-/

namespace Stroke
namespace Witness
open Scalar Fl

variable (cosI acosI : ℝ → ℝ) (powI : ℝ → ℝ → ℝ)

local notation "F" => binary64 cosI acosI powI
local notation "pt" => smallPoint cosI acosI powI
local notation "Q" => smallQuad cosI acosI powI
local notation "C" => smallCubic cosI acosI powI
local notation "p38" => param_ok cosI acosI powI

/-! ### Evaluation -/

example := C67_cubic_eval (C) (M := 10) (p38) (by norm_num) (by norm_num) (u_le cosI acosI powI)
  (eta_le cosI acosI powI) (bd cosI acosI powI _ _) (bd cosI acosI powI _ _)
  (bd cosI acosI powI _ _) (bd cosI acosI powI _ _) (max_ge cosI acosI powI (by norm_num))
example := C67_cubic_casteljau (C) (M := 10) (p38) (by norm_num) (by norm_num)
  (u_le cosI acosI powI) (eta_le cosI acosI powI) (bd cosI acosI powI _ _) (bd cosI acosI powI _ _)
  (bd cosI acosI powI _ _) (bd cosI acosI powI _ _) (max_ge cosI acosI powI (by norm_num))
example (i : Fin 2) := C118_quadratic (Q) (M := 10) (p38) (p38) ⟨by norm_num, by norm_num⟩
  ⟨by norm_num, by norm_num⟩ (u_le cosI acosI powI) (eta_le cosI acosI powI)
  (bd cosI acosI powI _ _) (bd cosI acosI powI _ _) (bd cosI acosI powI _ _)
  (max_ge cosI acosI powI (by norm_num)) i _ _ _ rfl rfl rfl
example := C118_agree_quadratic (Q) (M := 10) (p38) ⟨by norm_num, by norm_num⟩
  (u_le cosI acosI powI) (eta_le cosI acosI powI) (bd cosI acosI powI _ _) (bd cosI acosI powI _ _)
  (bd cosI acosI powI _ _) (by norm_num) (max_ge cosI acosI powI (by norm_num)) rfl (by
    obtain ⟨hu, he, hm⟩ := b64_small cosI acosI powI
    have u0 := (F).u_nonneg
    have e0 := (F).eta_nonneg
    rw [add_sub_cancel]
    refine le_trans ?_ hm
    calc _ ≤ ((1 + 1 / 10 ^ 15 : ℝ) ^ 2 * (1 + 1 / 10 ^ 15 + 1 / 10 ^ 15)) ^ 2
        * (10 + 2 * (3 * (1 + 1 / 10 ^ 15) * (1 / 10 ^ 15))) := by gcongr
      _ ≤ _ := by norm_num)
example := C118_agree_cubic (C) (M := 10) (p38) ⟨by norm_num, by norm_num⟩
  (u_le cosI acosI powI) (eta_le cosI acosI powI) (bd cosI acosI powI _ _) (bd cosI acosI powI _ _)
  (bd cosI acosI powI _ _) (bd cosI acosI powI _ _) (by norm_num)
  (max_ge cosI acosI powI (by norm_num)) rfl (by
    obtain ⟨hu, he, hm⟩ := b64_small cosI acosI powI
    have u0 := (F).u_nonneg
    have e0 := (F).eta_nonneg
    rw [add_sub_cancel]
    refine le_trans ?_ hm
    calc _ ≤ ((1 + 1 / 10 ^ 15 : ℝ) ^ 2 * (1 + 1 / 10 ^ 15 + 1 / 10 ^ 15)) ^ 3
        * (10 + 3 * (3 * (1 + 1 / 10 ^ 15) * (1 / 10 ^ 15))) := by gcongr
      _ ≤ _ := by norm_num)

/-! ### Length -/

example := C98_cubic_binary64 (cosI := cosI) (acosI := acosI) (powI := powI) (k := 1000)
  (by norm_num) (by norm_num) (C) (M := 10) (D := 30) (by norm_num) (by norm_num) (by norm_num)
  (bd cosI acosI powI _ _) (bd cosI acosI powI _ _) (bd cosI acosI powI _ _)
  (bd cosI acosI powI _ _) (small_dist _ _ _ _ _ _ _) (small_dist _ _ _ _ _ _ _)
  (small_dist _ _ _ _ _ _ _)

/-! ### Boxes -/

example := C108_cubic (C108_ieee cosI acosI powI).1 (C) (fun _ => 0) (fun _ => 10)
  (fun _ => max_ge cosI acosI powI (by norm_num)) (inside_C cosI acosI powI)
  (unit38 cosI acosI powI)

/-- A quadratic curve with a NaN end point has no box (`C63_box_quadratic_partial`), and neither has
a cubic curve (`C63_box_cubic_partial`). -/
example : (⟨pt 1 2, pt 3 4, ⟨![nan, (pt 1 2).coords 1]⟩⟩ : QuadraticBezier _).boundingBox = none ∧
    (⟨pt 1 2, pt 3 4, pt 5 6, ⟨![nan, (pt 1 2).coords 1]⟩⟩ : CubicBezier _).boundingBox = none :=
  ⟨C63_box_quadratic_partial _ 0 (Or.inr rfl), C63_box_cubic_partial _ 0 (Or.inr rfl)⟩

/-! ### Distance and propagation -/

example : (⟨pt 1 2, pt 3 4⟩ : LineSegment _).distanceToPoint (⟨![nan, (pt 1 2).coords 1]⟩)
    = some (nan : Fl F) :=
  C75_line _ _ 0 (Or.inr (Or.inr rfl))

/-! ### Reversal -/

example := C114_derivative (C96_ieee cosI acosI powI).1 (smallBezier cosI acosI powI) (by norm_num)

end Witness
end Stroke
