import Verif.Lemmas.IeeeLerp

/-!
# Rounding commutes with multiplication by powers of two
-/

namespace Stroke

variable {p : ℕ} {emin : ℤ}

theorem log_two_zpow_mul {x : ℝ} (hx : x ≠ 0) (k : ℤ) :
    Int.log 2 |2 ^ k * x| = Int.log 2 |x| + k := by
  have h2 : (0 : ℝ) < 2 ^ k := by positivity
  have hx' : 0 < |x| := abs_pos.2 hx
  have e : |2 ^ k * x| = 2 ^ k * |x| := by rw [abs_mul, abs_of_pos h2]
  have hp : 0 < |2 ^ k * x| := by rw [e]; positivity
  apply le_antisymm
  · have h1 : |x| < (2 : ℝ) ^ (Int.log 2 |x| + 1) := by
      have := Int.lt_zpow_succ_log_self (b := 2) (by norm_num) |x|
      exact_mod_cast this
    have h3 : |2 ^ k * x| < ((2 : ℕ) : ℝ) ^ (Int.log 2 |x| + k + 1) := by
      rw [e, show Int.log 2 |x| + k + 1 = k + (Int.log 2 |x| + 1) by ring]
      push_cast
      rw [zpow_add₀ (by norm_num) k]
      exact mul_lt_mul_of_pos_left h1 h2
    have := (Int.lt_zpow_iff_log_lt (b := 2) (by norm_num) hp).1 h3
    omega
  · have h1 : (2 : ℝ) ^ Int.log 2 |x| ≤ |x| := by
      have := Int.zpow_log_le_self (b := 2) (by norm_num) hx'
      exact_mod_cast this
    refine (Int.zpow_le_iff_le_log (b := 2) (by norm_num) hp).1 ?_
    rw [e, add_comm]
    push_cast
    rw [zpow_add₀ (by norm_num) k]
    exact mul_le_mul_of_nonneg_left h1 h2.le

/-- Rounding commutes with scaling by `2^k` as long as there is no underflow. -/
theorem ieeeRnd_scale {x : ℝ} {k : ℤ} (h1 : (2 : ℝ) ^ (emin + p - 1) ≤ |x|)
    (h2 : (2 : ℝ) ^ (emin + p - 1) ≤ |2 ^ k * x|) :
    ieeeRnd p emin (2 ^ k * x) = 2 ^ k * ieeeRnd p emin x := by
  have hx : x ≠ 0 := by
    rintro rfl
    rw [abs_zero] at h1
    exact absurd h1 (not_le.2 (by positivity))
  have hk : (0 : ℝ) < 2 ^ k := by positivity
  have l1 := (Int.zpow_le_iff_le_log (b := 2) (by norm_num) (abs_pos.2 hx)).1
    (by exact_mod_cast h1)
  have l2 := (Int.zpow_le_iff_le_log (b := 2) (by norm_num)
    (abs_pos.2 (mul_ne_zero hk.ne' hx))).1 (by exact_mod_cast h2)
  have e : ulpExp p emin (2 ^ k * x) = ulpExp p emin x + k := by
    unfold ulpExp
    rw [log_two_zpow_mul hx] at l2 ⊢
    rw [max_eq_left (by omega), max_eq_left (by omega)]
    ring
  unfold ieeeRnd
  rw [e, zpow_add₀ (by norm_num)]
  have hu : (0 : ℝ) < 2 ^ ulpExp p emin x := by positivity
  rw [show 2 ^ k * x / ((2 : ℝ) ^ ulpExp p emin x * 2 ^ k) = x / 2 ^ ulpExp p emin x by
    field_simp]
  ring

/-- Rounding a multiple of a power of two gives a multiple of it. -/
theorem ieeeRnd_multiple {x : ℝ} {m : ℤ} (hx : ∃ z : ℤ, x = z * 2 ^ m) :
    ∃ z : ℤ, ieeeRnd p emin x = z * 2 ^ m := by
  obtain ⟨z, hz⟩ := hx
  rcases le_or_gt (ulpExp p emin x) m with h | h
  · exact ⟨z, by rw [ieeeRnd_of_int hz h, hz]⟩
  · refine ⟨roundEven (x / 2 ^ ulpExp p emin x) * 2 ^ (ulpExp p emin x - m).toNat, ?_⟩
    unfold ieeeRnd
    push_cast
    rw [mul_assoc]
    congr 1
    rw [← zpow_natCast, ← zpow_add₀ (by norm_num)]
    congr 1
    omega

/-- Large values of the format are multiples of large powers of two. -/
theorem ieeeGrid_coarse {x : ℝ} {e : ℤ} (hx : x ∈ ieeeGrid p emin) (he : (2 : ℝ) ^ e ≤ |x|) :
    ∃ z : ℤ, x = z * 2 ^ (e - p) := by
  obtain ⟨m, f, hm, _, rfl⟩ := hx
  have h2 : (0 : ℝ) < 2 ^ f := by positivity
  have hm' : |(m : ℝ)| ≤ 2 ^ p := by exact_mod_cast hm
  have h3 : (2 : ℝ) ^ e ≤ 2 ^ ((p : ℤ) + f) := by
    rw [zpow_add₀ (by norm_num), zpow_natCast]
    rw [abs_mul, abs_of_pos h2] at he
    exact he.trans (mul_le_mul_of_nonneg_right hm' h2.le)
  have h4 := (zpow_le_zpow_iff_right₀ (by norm_num : (1 : ℝ) < 2)).1 h3
  refine ⟨m * 2 ^ (f - (e - p)).toNat, ?_⟩
  push_cast
  rw [mul_assoc]
  congr 1
  rw [← zpow_natCast, ← zpow_add₀ (by norm_num)]
  congr 1
  omega

end Stroke
