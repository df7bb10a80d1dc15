import Verif.Spec.Float
import Mathlib.Data.Int.Log

/-!
# The IEEE binary formats with rounding to nearest, ties to even, are float formats
-/

namespace Stroke

/-- The integer nearest to `x`, the even one of the two if `x` is half way. -/
noncomputable def roundEven (x : ℝ) : ℤ :=
  open Classical in
  if Int.fract x < 1 / 2 then ⌊x⌋
  else if 1 / 2 < Int.fract x then ⌊x⌋ + 1
  else if Even ⌊x⌋ then ⌊x⌋ else ⌊x⌋ + 1

theorem roundEven_spec (x : ℝ) :
    |x - roundEven x| < 1 / 2 ∨ (|x - roundEven x| = 1 / 2 ∧ Even (roundEven x)) := by
  have h0 := Int.fract_nonneg x
  have h1 := Int.fract_lt_one x
  have h2 : x = ⌊x⌋ + Int.fract x := (Int.floor_add_fract x).symm
  unfold roundEven
  split_ifs with c1 c2 c3
  · left
    rw [show x - (⌊x⌋ : ℝ) = Int.fract x by linarith, abs_of_nonneg h0]
    exact c1
  · left
    push_cast
    rw [abs_lt]
    constructor <;> linarith
  · right
    refine ⟨?_, c3⟩
    rw [show x - (⌊x⌋ : ℝ) = Int.fract x by linarith, abs_of_nonneg h0]
    linarith
  · right
    refine ⟨?_, ?_⟩
    · push_cast
      rw [show x - ((⌊x⌋ : ℝ) + 1) = -(1 / 2) by linarith, abs_neg, abs_of_pos (by norm_num)]
    · exact (Int.not_even_iff_odd.1 c3).add_one

theorem roundEven_unique {x : ℝ} {n m : ℤ} (hn : |x - n| < 1 / 2 ∨ (|x - n| = 1 / 2 ∧ Even n))
    (hm : |x - m| < 1 / 2 ∨ (|x - m| = 1 / 2 ∧ Even m)) : n = m := by
  have hn' : |x - n| ≤ 1 / 2 := by rcases hn with h | h; exacts [h.le, h.1.le]
  have hm' : |x - m| ≤ 1 / 2 := by rcases hm with h | h; exacts [h.le, h.1.le]
  rw [abs_le] at hn' hm'
  by_contra hne
  have key : ∀ a b : ℤ, a < b → |x - a| ≤ 1 / 2 → |x - b| ≤ 1 / 2 → b = a + 1 ∧ x = a + 1 / 2 := by
    intro a b hab h1 h2
    rw [abs_le] at h1 h2
    have h3 : (a : ℝ) + 1 ≤ b := by exact_mod_cast hab
    have h4 : (b : ℝ) = a + 1 := by linarith
    exact ⟨by exact_mod_cast h4, by linarith⟩
  rcases lt_or_gt_of_ne hne with h | h
  · obtain ⟨e1, e2⟩ := key n m h (abs_le.2 hn') (abs_le.2 hm')
    have e3 : |x - n| = 1 / 2 := by rw [e2]; norm_num
    have e4 : |x - m| = 1 / 2 := by rw [e2, e1]; push_cast; norm_num
    have hn2 : Even n := by rcases hn with h | h; exacts [absurd h (by rw [e3]; norm_num), h.2]
    have hm2 : Even m := by rcases hm with h | h; exacts [absurd h (by rw [e4]; norm_num), h.2]
    rw [e1] at hm2
    exact (Int.not_even_iff_odd.2 hn2.add_one) hm2
  · obtain ⟨e1, e2⟩ := key m n h (abs_le.2 hm') (abs_le.2 hn')
    have e3 : |x - m| = 1 / 2 := by rw [e2]; norm_num
    have e4 : |x - n| = 1 / 2 := by rw [e2, e1]; push_cast; norm_num
    have hn2 : Even n := by rcases hn with h | h; exacts [absurd h (by rw [e4]; norm_num), h.2]
    have hm2 : Even m := by rcases hm with h | h; exacts [absurd h (by rw [e3]; norm_num), h.2]
    rw [e1] at hn2
    exact (Int.not_even_iff_odd.2 hm2.add_one) hn2

theorem roundEven_err (x : ℝ) : |x - roundEven x| ≤ 1 / 2 := by
  rcases roundEven_spec x with h | h
  exacts [h.le, h.1.le]

@[simp] theorem roundEven_int (n : ℤ) : roundEven n = n :=
  roundEven_unique (roundEven_spec _) (Or.inl (by norm_num))

theorem roundEven_neg (x : ℝ) : roundEven (-x) = -roundEven x := by
  refine roundEven_unique (roundEven_spec _) ?_
  have e : |-x - ((-roundEven x : ℤ) : ℝ)| = |x - roundEven x| := by
    push_cast
    rw [← abs_neg]
    congr 1
    ring
  rw [e]
  simpa using roundEven_spec x

theorem roundEven_mono : Monotone roundEven := by
  intro x y hxy
  by_contra hcon
  push Not at hcon
  have h1 := abs_le.1 (roundEven_err x)
  have h2 := abs_le.1 (roundEven_err y)
  have h3 : (roundEven y : ℝ) + 1 ≤ roundEven x := by exact_mod_cast hcon
  have : x = y := by linarith
  rw [this] at hcon
  exact lt_irrefl _ hcon

/-- Exponent of the unit in the last place of `x`, precision `p`, smallest exponent `emin`. -/
noncomputable def ulpExp (p : ℕ) (emin : ℤ) (x : ℝ) : ℤ :=
  Max.max (Int.log 2 |x| - (p - 1)) emin

/-- Rounding to nearest, ties to even. -/
noncomputable def ieeeRnd (p : ℕ) (emin : ℤ) (x : ℝ) : ℝ :=
  roundEven (x / 2 ^ ulpExp p emin x) * 2 ^ ulpExp p emin x

/-- The numbers `m * 2^e` with `|m| ≤ 2^p` and `e ≥ emin`. -/
def ieeeGrid (p : ℕ) (emin : ℤ) : Set ℝ :=
  {x | ∃ m e : ℤ, |m| ≤ 2 ^ p ∧ emin ≤ e ∧ x = m * 2 ^ e}

section
variable {p : ℕ} {emin : ℤ}

theorem ieeeRnd_neg (x : ℝ) : ieeeRnd p emin (-x) = -ieeeRnd p emin x := by
  have e : ulpExp p emin (-x) = ulpExp p emin x := by unfold ulpExp; rw [abs_neg]
  unfold ieeeRnd
  rw [e, neg_div, roundEven_neg]
  push_cast
  ring

theorem abs_lt_two_zpow {x : ℝ} : |x| < 2 ^ ((p : ℤ) + ulpExp p emin x) := by
  have h1 : |x| < (2 : ℝ) ^ (Int.log 2 |x| + 1) := by
    have := Int.lt_zpow_succ_log_self (b := 2) (by norm_num) |x|
    exact_mod_cast this
  refine h1.trans_le (zpow_le_zpow_right₀ (by norm_num) ?_)
  have : Int.log 2 |x| - ((p : ℤ) - 1) ≤ ulpExp p emin x := le_max_left _ _
  omega

theorem ieeeRnd_mem (x : ℝ) : ieeeRnd p emin x ∈ ieeeGrid p emin := by
  refine ⟨_, _, ?_, le_max_right _ _, rfl⟩
  have h2 : (0 : ℝ) < 2 ^ ulpExp p emin x := by positivity
  have h1 : |x / 2 ^ ulpExp p emin x| ≤ ((2 ^ p : ℤ) : ℝ) := by
    rw [abs_div, abs_of_pos h2, div_le_iff₀ h2]
    have := (abs_lt_two_zpow (p := p) (emin := emin) (x := x)).le
    rw [zpow_add₀ (by norm_num), zpow_natCast] at this
    exact_mod_cast this
  rw [abs_le] at h1 ⊢
  constructor
  · have := roundEven_mono h1.1
    rwa [← Int.cast_neg, roundEven_int] at this
  · have := roundEven_mono h1.2
    rwa [roundEven_int] at this

/-- `x` is fixed if its quotient by a multiple of the unit in the last place is an integer. -/
theorem ieeeRnd_of_int {x : ℝ} {m e : ℤ} (hx : x = m * 2 ^ e) (he : ulpExp p emin x ≤ e) :
    ieeeRnd p emin x = x := by
  have h2 : (2 : ℝ) ^ ulpExp p emin x ≠ 0 := by positivity
  obtain ⟨d, hd⟩ : ∃ d : ℕ, e = ulpExp p emin x + d :=
    ⟨(e - ulpExp p emin x).toNat, by omega⟩
  have h3 : x / 2 ^ ulpExp p emin x = ((m * 2 ^ d : ℤ) : ℝ) := by
    rw [div_eq_iff h2]
    conv_lhs => rw [hx, hd]
    rw [zpow_add₀ (by norm_num), zpow_natCast]
    push_cast
    ring
  unfold ieeeRnd
  rw [h3, roundEven_int, ← h3, div_mul_cancel₀ _ h2]

theorem ieeeRnd_zero : ieeeRnd p emin 0 = 0 := by
  have : (0 : ℝ) = ((0 : ℤ) : ℝ) := by norm_num
  simp only [ieeeRnd, zero_div]
  rw [this, roundEven_int]
  norm_num

theorem ieeeRnd_of_mem (hp : 1 ≤ p) (x : ℝ) (hx : x ∈ ieeeGrid p emin) :
    ieeeRnd p emin x = x := by
  by_cases h0 : x = 0
  · rw [h0, ieeeRnd_zero]
  obtain ⟨m, e, hm, he, hx⟩ := hx
  have key : ∀ m e : ℤ, |m| < 2 ^ p → emin ≤ e → x = m * 2 ^ e → ieeeRnd p emin x = x := by
    intro m e hm he hx
    apply ieeeRnd_of_int hx
    refine max_le ?_ he
    have h1 : |x| < (2 : ℝ) ^ ((p : ℤ) + e) := by
      rw [hx, abs_mul, abs_of_pos (show (0 : ℝ) < 2 ^ e by positivity),
        zpow_add₀ (by norm_num), zpow_natCast]
      have : |(m : ℝ)| < 2 ^ p := by exact_mod_cast hm
      exact mul_lt_mul_of_pos_right this (by positivity)
    have h2 := (Int.lt_zpow_iff_log_lt (b := 2) (by norm_num) (abs_pos.2 h0)).1
      (by exact_mod_cast h1)
    omega
  rcases lt_or_eq_of_le hm with h | h
  · exact key m e h he hx
  · obtain ⟨q, rfl⟩ : ∃ q, p = q + 1 := ⟨p - 1, by omega⟩
    have h2 : (2 : ℝ) ^ e * 2 = 2 ^ (e + 1) := by rw [zpow_add₀ (by norm_num)]; norm_num
    rcases abs_choice m with hc | hc
    · refine key (2 ^ q) (e + 1) ?_ (by omega) ?_
      · rw [abs_of_pos (by positivity)]
        exact pow_lt_pow_right₀ (by norm_num) (by omega)
      · rw [hx, ← hc, h, ← h2]
        push_cast
        ring
    · refine key (-2 ^ q) (e + 1) ?_ (by omega) ?_
      · rw [abs_neg, abs_of_pos (by positivity)]
        exact pow_lt_pow_right₀ (by norm_num) (by omega)
      · have : m = -2 ^ (q + 1) := by omega
        rw [hx, this, ← h2]
        push_cast
        ring

theorem ieeeRnd_nonneg {x : ℝ} (hx : 0 ≤ x) : 0 ≤ ieeeRnd p emin x := by
  unfold ieeeRnd
  have h2 : (0 : ℝ) < 2 ^ ulpExp p emin x := by positivity
  have h1 : (0 : ℝ) ≤ x / 2 ^ ulpExp p emin x := by positivity
  have := roundEven_mono h1
  rw [show (0 : ℝ) = ((0 : ℤ) : ℝ) by norm_num, roundEven_int] at this
  have h3 : (0 : ℝ) ≤ roundEven (x / 2 ^ ulpExp p emin x) := by exact_mod_cast this
  positivity

theorem ieeeRnd_mono_pos (hp : 1 ≤ p) {x y : ℝ} (hx : 0 < x) (hxy : x ≤ y) :
    ieeeRnd p emin x ≤ ieeeRnd p emin y := by
  have hy : 0 < y := hx.trans_le hxy
  have hlog : Int.log 2 |x| ≤ Int.log 2 |y| :=
    Int.log_mono_right (abs_pos.2 hx.ne') (by rwa [abs_of_pos hx, abs_of_pos hy])
  have hexp : ulpExp p emin x ≤ ulpExp p emin y :=
    max_le_max (by omega) le_rfl
  rcases eq_or_lt_of_le hexp with h | h
  · unfold ieeeRnd
    rw [h]
    apply mul_le_mul_of_nonneg_right _ (by positivity)
    exact_mod_cast roundEven_mono (div_le_div_of_nonneg_right hxy (by positivity))
  · -- the power of two `B` lies between
    have hey : ulpExp p emin y = Int.log 2 |y| - ((p : ℤ) - 1) := by
      have : emin ≤ ulpExp p emin x := le_max_right _ _
      unfold ulpExp at h this ⊢
      omega
    have hlt : Int.log 2 |x| < Int.log 2 |y| := by
      have : Int.log 2 |x| - ((p : ℤ) - 1) ≤ ulpExp p emin x := le_max_left _ _
      omega
    have hB1 : x ≤ 2 ^ Int.log 2 |y| := by
      have h1 : |x| < (2 : ℝ) ^ (Int.log 2 |x| + 1) := by
        have := Int.lt_zpow_succ_log_self (b := 2) (by norm_num) |x|
        exact_mod_cast this
      rw [abs_of_pos hx] at h1 hlt
      exact h1.le.trans (zpow_le_zpow_right₀ (by norm_num) (by omega))
    have hB2 : (2 : ℝ) ^ Int.log 2 |y| ≤ y := by
      have := Int.zpow_log_le_self (b := 2) (by norm_num) (abs_pos.2 hy.ne')
      rw [abs_of_pos hy] at this ⊢
      exact_mod_cast this
    have bound : ∀ (z : ℝ) (d : ℕ), Int.log 2 |y| = ulpExp p emin z + d →
        (z ≤ 2 ^ Int.log 2 |y| → ieeeRnd p emin z ≤ 2 ^ Int.log 2 |y|) ∧
        (2 ^ Int.log 2 |y| ≤ z → 2 ^ Int.log 2 |y| ≤ ieeeRnd p emin z) := by
      intro z d hd
      have h2 : (0 : ℝ) < 2 ^ ulpExp p emin z := by positivity
      have e1 : (2 : ℝ) ^ Int.log 2 |y| = ((2 ^ d : ℤ) : ℝ) * 2 ^ ulpExp p emin z := by
        rw [hd, zpow_add₀ (by norm_num), zpow_natCast]
        push_cast
        ring
      rw [e1]
      unfold ieeeRnd
      constructor
      · intro hz
        apply mul_le_mul_of_nonneg_right _ h2.le
        have := roundEven_mono ((div_le_iff₀ h2).2 hz)
        rw [roundEven_int] at this
        exact_mod_cast this
      · intro hz
        apply mul_le_mul_of_nonneg_right _ h2.le
        have := roundEven_mono ((le_div_iff₀ h2).2 hz)
        rw [roundEven_int] at this
        exact_mod_cast this
    have b1 := (bound x (Int.log 2 |y| - ulpExp p emin x).toNat (by omega)).1 hB1
    have b2 := (bound y (Int.log 2 |y| - ulpExp p emin y).toNat (by omega)).2 hB2
    exact b1.trans b2

theorem ieeeRnd_mono (hp : 1 ≤ p) : Monotone (ieeeRnd p emin) := by
  intro x y hxy
  rcases lt_or_ge 0 x with hx | hx
  · exact ieeeRnd_mono_pos hp hx hxy
  · rcases lt_or_ge y 0 with hy | hy
    · have := ieeeRnd_mono_pos (emin := emin) hp (neg_pos.2 hy) (neg_le_neg hxy)
      rw [ieeeRnd_neg, ieeeRnd_neg] at this
      linarith
    · have h1 := ieeeRnd_nonneg (p := p) (emin := emin) hy
      have h2 := ieeeRnd_nonneg (p := p) (emin := emin) (neg_nonneg.2 hx)
      rw [ieeeRnd_neg] at h2
      linarith

theorem ieeeRnd_err (x : ℝ) :
    |ieeeRnd p emin x - x| ≤ 2 ^ (-(p : ℤ)) * |x| + 2 ^ (emin - 1) := by
  have n1 : (0 : ℝ) ≤ 2 ^ (-(p : ℤ)) * |x| := by positivity
  have n2 : (0 : ℝ) < 2 ^ (emin - 1) := by positivity
  by_cases hx : x = 0
  · rw [hx, ieeeRnd_zero, sub_zero, abs_zero, mul_zero, zero_add]
    exact n2.le
  have h2 : (0 : ℝ) < 2 ^ ulpExp p emin x := by positivity
  have h1 : |ieeeRnd p emin x - x| ≤ 1 / 2 * 2 ^ ulpExp p emin x := by
    have e : ieeeRnd p emin x - x
        = -(x / 2 ^ ulpExp p emin x - roundEven (x / 2 ^ ulpExp p emin x))
          * 2 ^ ulpExp p emin x := by
      unfold ieeeRnd
      field_simp
      ring
    rw [e, abs_mul, abs_neg, abs_of_pos h2]
    exact mul_le_mul_of_nonneg_right (roundEven_err _) h2.le
  refine h1.trans ?_
  have e3 : (1 / 2 : ℝ) * 2 ^ ulpExp p emin x = 2 ^ (ulpExp p emin x - 1) := by
    rw [zpow_sub₀ (by norm_num)]; norm_num; ring
  rw [e3]
  rcases max_choice (Int.log 2 |x| - ((p : ℤ) - 1)) emin with h | h
  · rw [show ulpExp p emin x = _ from h]
    have h3 : (2 : ℝ) ^ Int.log 2 |x| ≤ |x| := by
      have := Int.zpow_log_le_self (b := 2) (by norm_num) (abs_pos.2 hx)
      exact_mod_cast this
    have e4 : (2 : ℝ) ^ (Int.log 2 |x| - ((p : ℤ) - 1) - 1)
        = 2 ^ (-(p : ℤ)) * 2 ^ Int.log 2 |x| := by
      rw [← zpow_add₀ (by norm_num)]
      congr 1
      ring
    rw [e4]
    have := mul_le_mul_of_nonneg_left h3 (show (0 : ℝ) ≤ 2 ^ (-(p : ℤ)) by positivity)
    linarith
  · rw [show ulpExp p emin x = _ from h]
    linarith
end

/-- The binary format with precision `p`, smallest exponent `emin` and largest exponent `emax`
(both of the unit in the last place), with the given `cos`, `acos` and `powf`. -/
noncomputable def ieee (p : ℕ) (emin : ℤ) (emax : ℕ) (hp : 11 ≤ p) (he : emin ≤ 1 - p)
    (cosImpl acosImpl : ℝ → ℝ) (powImpl : ℝ → ℝ → ℝ) : FloatFormat where
  grid := ieeeGrid p emin
  rnd := ieeeRnd p emin
  max := (2 ^ p - 1) * 2 ^ emax
  u := 2 ^ (-(p : ℤ))
  eta := 2 ^ (emin - 1)
  epsilon := 2 ^ (1 - (p : ℤ))
  cosImpl := cosImpl
  acosImpl := acosImpl
  powImpl := powImpl
  rnd_mem := ieeeRnd_mem
  rnd_of_mem := ieeeRnd_of_mem (by omega)
  rnd_mono := ieeeRnd_mono (by omega)
  rnd_err := ieeeRnd_err
  u_nonneg := by positivity
  eta_nonneg := by positivity
  neg_mem := by
    rintro x ⟨m, e, hm, h, rfl⟩
    exact ⟨-m, e, by rwa [abs_neg], h, by push_cast; ring⟩
  int_mem := by
    intro n hn
    refine ⟨n, 0, hn.trans ?_, by omega, by simp⟩
    calc (1024 : ℤ) = 2 ^ 10 := by norm_num
      _ ≤ 2 ^ p := pow_le_pow_right₀ (by norm_num) (by omega)
  max_mem := by
    refine ⟨2 ^ p - 1, emax, ?_, by omega, ?_⟩
    · have : (1 : ℤ) ≤ 2 ^ p := one_le_pow₀ (by norm_num)
      rw [abs_of_nonneg (by omega)]
      omega
    · push_cast
      rw [zpow_natCast]
  max_ge := by
    have h1 : (2 : ℝ) ^ 11 ≤ 2 ^ p := pow_le_pow_right₀ (by norm_num) hp
    have h2 : (1 : ℝ) ≤ 2 ^ emax := one_le_pow₀ (by norm_num)
    nlinarith
  epsilon_mem := ⟨1, 1 - p, by
    rw [abs_one]
    exact one_le_pow₀ (by norm_num), he, by push_cast; ring⟩
  epsilon_pos := by positivity
  epsilon_le := zpow_le_one_of_nonpos₀ (by norm_num) (by omega)

/-- binary64 (Rust's `f64`). -/
noncomputable def binary64 (cosImpl acosImpl : ℝ → ℝ) (powImpl : ℝ → ℝ → ℝ) : FloatFormat :=
  ieee 53 (-1074) 971 (by norm_num) (by norm_num) cosImpl acosImpl powImpl

/-- binary32 (Rust's `f32`). -/
noncomputable def binary32 (cosImpl acosImpl : ℝ → ℝ) (powImpl : ℝ → ℝ → ℝ) : FloatFormat :=
  ieee 24 (-149) 104 (by norm_num) (by norm_num) cosImpl acosImpl powImpl

end Stroke
