import Verif.Lemmas.Roots
import Mathlib.Analysis.SpecialFunctions.Pow.Real
import Mathlib.Analysis.SpecialFunctions.Trigonometric.Inverse
import Mathlib.Analysis.Real.Pi.Bounds
import Mathlib.Analysis.SpecialFunctions.Trigonometric.Bounds

/-!
# The cubic root finder, in closed form over the reals, and Cardano's formulas
-/

namespace Stroke

/-- Normalised coefficients used by the code. -/
noncomputable def d0 (a b c : ℝ) : ℝ := (c / a * 3 - b / a * (b / a)) / 9
noncomputable def d1 (a b c d : ℝ) : ℝ :=
  (b / a * (c / a) * 9 - d / a * 27 - b / a * (b / a) * (b / a) * 2) / 54
noncomputable def d01 (a b c d : ℝ) : ℝ :=
  d0 a b c * d0 a b c * d0 a b c + d1 a b c d * d1 a b c d

/-- The real cube root as the code computes it. -/
noncomputable def croot (z : ℝ) : ℝ := (if z < 0 then -1 else 1) * |z| ^ ((1 : ℝ) / 3)

noncomputable def cs (a b c d : ℝ) : ℝ := croot (d1 a b c d + Real.sqrt (d01 a b c d))
noncomputable def ct (a b c d : ℝ) : ℝ := croot (d1 a b c d - Real.sqrt (d01 a b c d))

/-- The three-root branch with a given value for π. -/
noncomputable def trigRoot (a b c d : ℝ) (shift : ℝ) : ℝ :=
  Real.sqrt (-d0 a b c) * 2 * Real.cos ((Real.arccos (d1 a b c d /
    Real.sqrt (-d0 a b c * d0 a b c * d0 a b c)) + shift) * (1 / 3)) - b / a * (1 / 3)

/-- The value of `core::f32::consts::PI`. -/
noncomputable def pi32 : ℝ := 13176795 / 4194304

theorem piF32_real : (piF32 : ℝ) = pi32 := by
  unfold piF32 pi32; rw [lit_real]; push_cast; rfl

theorem rootsCubic_small {a : ℝ} (b c d : ℝ) (ha : |a| < eps) :
    rootsCubic a b c d = rootsSquare b c d := by
  rw [rootsSquare_eq]
  unfold rootsCubic
  simp only [lt_real, abs_real, epsilon_real, lit_real, sqrt_real, decide_eq_true_eq]
  rw [if_pos ha]
  norm_num
  by_cases hb : |b| < eps
  · rw [if_pos hb, if_pos hb]
    by_cases hc : |c| < eps
    · rw [if_pos hc, if_pos hc]
    · rw [if_neg hc, if_neg hc]; rfl
  · rw [if_neg hb, if_neg hb]
    by_cases hd : b * d * 4 < c * c
    · rw [if_pos hd, if_pos hd]; rfl
    · rw [if_neg hd, if_neg hd]
      by_cases hd' : |c * c - b * d * 4| < eps
      · rw [if_pos hd', if_pos hd']; rfl
      · rw [if_neg hd', if_neg hd']

theorem rootsCubic_eq {a : ℝ} (b c d : ℝ) (ha : eps ≤ |a|) : rootsCubic a b c d = some
    (if 0 ≤ d01 a b c d then
      (if |cs a b c d - ct a b c d| < eps ∧ eps ≤ |cs a b c d + ct a b c d| then
        [-(b / a) * (1 / 3) + (cs a b c d + ct a b c d),
         -(b / a) * (1 / 3) - (cs a b c d + ct a b c d) / 2]
       else [-(b / a) * (1 / 3) + (cs a b c d + ct a b c d)])
     else [trigRoot a b c d 0, trigRoot a b c d (2 * pi32), trigRoot a b c d (4 * pi32)]) := by
  unfold rootsCubic
  rw [piF32_real]
  simp only [lt_real, le_real, abs_real, epsilon_real, lit_real, sqrt_real, decide_eq_true_eq,
    signum_real, powf_real, acos_real, cos_real, Bool.and_eq_true]
  rw [if_neg (not_lt.2 ha)]
  push_cast
  change (if 0 ≤ d01 a b c d then _ else _) = _
  by_cases h : 0 ≤ d01 a b c d
  · rw [if_pos h, if_pos h]
    rw [avPush_some _ (by simp)]
    change (if |cs a b c d - ct a b c d| < eps ∧ eps ≤ |cs a b c d + ct a b c d| then _ else _) = _
    by_cases h2 : |cs a b c d - ct a b c d| < eps ∧ eps ≤ |cs a b c d + ct a b c d|
    · rw [if_pos h2, if_pos h2]; rfl
    · rw [if_neg h2, if_neg h2]; rfl
  · rw [if_neg h, if_neg h]
    rw [avPush_some _ (by simp)]
    simp only [Option.bind_eq_bind, Option.bind_some, List.nil_append]
    rw [avPush_some _ (by simp)]
    simp only [Option.bind_some]
    rw [avPush_some _ (by simp)]
    unfold trigRoot
    rw [add_zero]
    rfl

/-! ### Cube roots -/

theorem croot_cube (z : ℝ) : croot z ^ 3 = z := by
  unfold croot
  have h3 : (|z| ^ ((1 : ℝ) / 3)) ^ 3 = |z| := by
    rw [← Real.rpow_natCast, ← Real.rpow_mul (abs_nonneg z)]
    norm_num
  rw [mul_pow, h3]
  split
  · rename_i h; rw [abs_of_neg h]; norm_num
  · rename_i h; rw [abs_of_nonneg (not_lt.1 h)]; norm_num

theorem cube_inj {x y : ℝ} (h : x ^ 3 = y ^ 3) : x = y :=
  (Odd.strictMono_pow (by decide : Odd 3)).injective h

/-- `s³ + t³ = 2 δ1` and `s t = -δ0`. -/
theorem cs_ct {a b c d : ℝ} (h : 0 ≤ d01 a b c d) :
    cs a b c d ^ 3 + ct a b c d ^ 3 = 2 * d1 a b c d ∧ cs a b c d * ct a b c d = -d0 a b c := by
  have h1 : cs a b c d ^ 3 = d1 a b c d + Real.sqrt (d01 a b c d) := croot_cube _
  have h2 : ct a b c d ^ 3 = d1 a b c d - Real.sqrt (d01 a b c d) := croot_cube _
  have hs := Real.sq_sqrt h
  refine ⟨by rw [h1, h2]; ring, cube_inj ?_⟩
  rw [mul_pow, h1, h2]
  have : d01 a b c d = d0 a b c * d0 a b c * d0 a b c + d1 a b c d * d1 a b c d := rfl
  linear_combination -hs - this

/-- Shift to the depressed cubic. -/
theorem depressed {a : ℝ} (b c d : ℝ) (ha : a ≠ 0) (y : ℝ) :
    a * (-(b / a) * (1 / 3) + y) ^ 3 + b * (-(b / a) * (1 / 3) + y) ^ 2
      + c * (-(b / a) * (1 / 3) + y) + d
      = a * (y ^ 3 + 3 * d0 a b c * y - 2 * d1 a b c d) := by
  unfold d0 d1
  field_simp
  ring

/-- The discriminant of a cubic, and the quantity the code branches on. -/
theorem d01_disc {a : ℝ} (b c d : ℝ) (ha : a ≠ 0) :
    18 * a * b * c * d - 4 * b ^ 3 * d + b ^ 2 * c ^ 2 - 4 * a * c ^ 3 - 27 * a ^ 2 * d ^ 2
      = -108 * a ^ 4 * d01 a b c d := by
  unfold d01 d0 d1
  field_simp
  ring

/-- The real roots of `y³ + 3 δ0 y - 2 δ1` in terms of `s` and `t`. -/
theorem depressed_roots {s t y : ℝ} :
    y ^ 3 - 3 * (s * t) * y - (s ^ 3 + t ^ 3) = 0 ↔
      y = s + t ∨ (s = t ∧ y = -(s + t) / 2) := by
  have key : y ^ 3 - 3 * (s * t) * y - (s ^ 3 + t ^ 3)
      = (y - (s + t)) * ((y + (s + t) / 2) ^ 2 + 3 / 4 * (s - t) ^ 2) := by ring
  rw [key, mul_eq_zero, sub_eq_zero]
  constructor
  · rintro (h | h)
    · exact Or.inl h
    · right
      have h1 := sq_nonneg (y + (s + t) / 2)
      have h2 := sq_nonneg (s - t)
      have e1 : (y + (s + t) / 2) ^ 2 = 0 := by linarith
      have e2 : (s - t) ^ 2 = 0 := by linarith
      have e1' := pow_eq_zero_iff (two_ne_zero) |>.1 e1
      have e2' := pow_eq_zero_iff (two_ne_zero) |>.1 e2
      exact ⟨by linarith, by linarith⟩
  · rintro (h | ⟨h1, h2⟩)
    · exact Or.inl h
    · right; subst h1; rw [h2]; ring

/-! ### The three-root branch -/

theorem pi32_gt : Real.pi < pi32 := by
  unfold pi32
  have := Real.pi_lt_d20
  norm_num at this ⊢
  linarith

theorem pi32_close : pi32 - Real.pi < 9 / 10 ^ 8 := by
  unfold pi32
  have := Real.pi_gt_d20
  norm_num at this ⊢
  linarith

theorem d0_neg {a b c d : ℝ} (h : d01 a b c d < 0) : d0 a b c < 0 := by
  by_contra h0
  have h0' := not_lt.1 h0
  have : 0 ≤ d01 a b c d := by
    unfold d01
    have := mul_self_nonneg (d1 a b c d)
    positivity
  linarith

/-- The argument of `acos` lies strictly between -1 and 1. -/
theorem acos_arg {a b c d : ℝ} (h : d01 a b c d < 0) :
    Real.sqrt (-d0 a b c * d0 a b c * d0 a b c) = Real.sqrt (-d0 a b c) ^ 3 ∧
    -1 < d1 a b c d / Real.sqrt (-d0 a b c * d0 a b c * d0 a b c) ∧
    d1 a b c d / Real.sqrt (-d0 a b c * d0 a b c * d0 a b c) < 1 := by
  have hn := d0_neg h
  set m := Real.sqrt (-d0 a b c) with hm
  have hm0 : 0 < m := Real.sqrt_pos.2 (by linarith)
  have hm2 : m ^ 2 = -d0 a b c := Real.sq_sqrt (by linarith)
  have e : -d0 a b c * d0 a b c * d0 a b c = (m ^ 3) ^ 2 := by
    have : (m ^ 3) ^ 2 = (m ^ 2) ^ 3 := by ring
    rw [this, hm2]; ring
  have e2 : Real.sqrt (-d0 a b c * d0 a b c * d0 a b c) = m ^ 3 := by
    rw [e, Real.sqrt_sq (by positivity)]
  have hm3 : 0 < m ^ 3 := by positivity
  have hlt : d1 a b c d ^ 2 < (m ^ 3) ^ 2 := by
    rw [← e]
    have : d01 a b c d = d0 a b c * d0 a b c * d0 a b c + d1 a b c d * d1 a b c d := rfl
    linarith
  have habs := abs_lt_of_sq_lt_sq' hlt hm3.le
  refine ⟨e2, ?_, ?_⟩
  · rw [e2, lt_div_iff₀ hm3]; linarith [habs.1]
  · rw [e2, div_lt_one hm3]; exact habs.2

/-- With the exact π, the three values of the trigonometric branch. -/
theorem trig_root {a b c d : ℝ} (ha : a ≠ 0) (h : d01 a b c d < 0) (k : ℕ) :
    a * trigRoot a b c d (2 * k * Real.pi) ^ 3 + b * trigRoot a b c d (2 * k * Real.pi) ^ 2
      + c * trigRoot a b c d (2 * k * Real.pi) + d = 0 := by
  obtain ⟨e, h1, h2⟩ := acos_arg h
  have hn := d0_neg h
  set m := Real.sqrt (-d0 a b c) with hm
  have hm0 : 0 < m := Real.sqrt_pos.2 (by linarith)
  have hm2 : m ^ 2 = -d0 a b c := Real.sq_sqrt (by linarith)
  set θ := Real.arccos (d1 a b c d / Real.sqrt (-d0 a b c * d0 a b c * d0 a b c)) with hθ
  have hcos : Real.cos θ = d1 a b c d / m ^ 3 := by
    rw [hθ, Real.cos_arccos h1.le h2.le, e]
  set φ := (θ + 2 * k * Real.pi) * (1 / 3) with hφ
  have h3 : Real.cos (3 * φ) = Real.cos θ := by
    have : 3 * φ = θ + k * (2 * Real.pi) := by rw [hφ]; ring
    rw [this, Real.cos_add_nat_mul_two_pi]
  have hx : trigRoot a b c d (2 * k * Real.pi) = -(b / a) * (1 / 3) + m * 2 * Real.cos φ := by
    unfold trigRoot
    rw [← hθ, ← hm, ← hφ]; ring
  rw [hx, depressed b c d ha]
  have hc3 := Real.cos_three_mul φ
  rw [h3, hcos] at hc3
  have hd1 : d1 a b c d = m ^ 3 * (4 * Real.cos φ ^ 3 - 3 * Real.cos φ) := by
    rw [← hc3]; field_simp
  rw [hd1]
  have : d0 a b c = -m ^ 2 := by linarith
  rw [this]; ring

/-- They are distinct. -/
theorem trig_distinct {a b c d : ℝ} (h : d01 a b c d < 0) :
    trigRoot a b c d (2 * Real.pi) < trigRoot a b c d (4 * Real.pi) ∧
    trigRoot a b c d (4 * Real.pi) < trigRoot a b c d 0 := by
  obtain ⟨e, h1, h2⟩ := acos_arg h
  have hn := d0_neg h
  have hm0 : 0 < Real.sqrt (-d0 a b c) := Real.sqrt_pos.2 (by linarith)
  unfold trigRoot
  set θ := Real.arccos (d1 a b c d / Real.sqrt (-d0 a b c * d0 a b c * d0 a b c)) with hθ
  have hpi := Real.pi_pos
  have ht0 : 0 < θ := Real.arccos_pos.2 h2
  have ht1 : θ < Real.pi := by
    rw [hθ]
    refine lt_of_le_of_ne (Real.arccos_le_pi _) ?_
    rw [Ne, Real.arccos_eq_pi]
    linarith
  have e4 : Real.cos ((θ + 4 * Real.pi) * (1 / 3)) = Real.cos (2 * Real.pi / 3 - θ / 3) := by
    rw [← Real.cos_neg, ← Real.cos_add_two_pi]
    congr 1; ring
  have l1 : Real.cos ((θ + 2 * Real.pi) * (1 / 3)) < Real.cos (2 * Real.pi / 3 - θ / 3) := by
    apply Real.cos_lt_cos_of_nonneg_of_le_pi <;> linarith
  have l2 : Real.cos (2 * Real.pi / 3 - θ / 3) < Real.cos ((θ + 0) * (1 / 3)) := by
    apply Real.cos_lt_cos_of_nonneg_of_le_pi <;> linarith
  rw [e4]
  constructor <;> nlinarith

/-- The error made by using the f32 value of π. -/
theorem trig_error (a b c d : ℝ) (k : ℝ) (hk : 0 ≤ k) :
    |trigRoot a b c d (k * pi32) - trigRoot a b c d (k * Real.pi)|
      ≤ Real.sqrt (-d0 a b c) * 2 * (k * (pi32 - Real.pi) / 3) := by
  unfold trigRoot
  set θ := Real.arccos (d1 a b c d / Real.sqrt (-d0 a b c * d0 a b c * d0 a b c)) with hθ
  have hpi := pi32_gt
  have hm0 : 0 ≤ Real.sqrt (-d0 a b c) := Real.sqrt_nonneg _
  have hcos := Real.abs_cos_sub_cos_le ((θ + k * pi32) * (1 / 3)) ((θ + k * Real.pi) * (1 / 3))
  have e : (θ + k * pi32) * (1 / 3) - (θ + k * Real.pi) * (1 / 3) = k * (pi32 - Real.pi) / 3 := by
    ring
  have hp : 0 ≤ k * (pi32 - Real.pi) / 3 := by
    have : 0 ≤ pi32 - Real.pi := by linarith
    positivity
  rw [e, abs_of_nonneg hp] at hcos
  have e2 : ∀ m x y z : ℝ, m * 2 * x - z - (m * 2 * y - z) = m * 2 * (x - y) := by
    intros; ring
  rw [e2, abs_mul, abs_of_nonneg (by positivity)]
  exact mul_le_mul_of_nonneg_left hcos (by positivity)

/-- A cubic with three distinct known roots has no other. -/
theorem three_roots {a b c d r1 r2 r3 x : ℝ} (ha : a ≠ 0) (h12 : r1 ≠ r2) (h13 : r1 ≠ r3)
    (h23 : r2 ≠ r3) (e1 : a * r1 ^ 3 + b * r1 ^ 2 + c * r1 + d = 0)
    (e2 : a * r2 ^ 3 + b * r2 ^ 2 + c * r2 + d = 0)
    (e3 : a * r3 ^ 3 + b * r3 ^ 2 + c * r3 + d = 0)
    (ex : a * x ^ 3 + b * x ^ 2 + c * x + d = 0) : x = r1 ∨ x = r2 ∨ x = r3 := by
  have f12 : a * (r1 ^ 2 + r1 * r2 + r2 ^ 2) + b * (r1 + r2) + c = 0 :=
    mul_left_cancel₀ (sub_ne_zero.2 h12) (by linear_combination e1 - e2)
  have f13 : a * (r1 ^ 2 + r1 * r3 + r3 ^ 2) + b * (r1 + r3) + c = 0 :=
    mul_left_cancel₀ (sub_ne_zero.2 h13) (by linear_combination e1 - e3)
  have hb : a * (r1 + r2 + r3) + b = 0 :=
    mul_left_cancel₀ (sub_ne_zero.2 h23) (by linear_combination f12 - f13)
  by_cases hx : x = r1
  · exact Or.inl hx
  right
  have fx : a * (x ^ 2 + x * r1 + r1 ^ 2) + b * (x + r1) + c = 0 :=
    mul_left_cancel₀ (sub_ne_zero.2 hx) (by linear_combination ex - e1)
  have : (x - r2) * (x - r3) = 0 :=
    mul_left_cancel₀ ha (by linear_combination fx - f12 - (x - r2) * hb)
  rcases mul_eq_zero.1 this with h | h
  · exact Or.inl (by linarith)
  · exact Or.inr (by linarith)

end Stroke
