import Verif.Lemmas.Ieee

/-!
# IEEE rounding: the step `(b - a) * t` of a linear interpolation with `t < 1` is not too long
-/

namespace Stroke

variable {p : ℕ} {emin : ℤ}

/-- The largest number of the format below 1 is `1 - 2^(-p)`. -/
theorem ieeeGrid_lt_one {t : ℝ} (ht : t ∈ ieeeGrid p emin) (hp : 1 ≤ p) (h1 : t < 1) :
    t ≤ 1 - 2 ^ (-(p : ℤ)) := by
  obtain ⟨m, e, hm, _, rfl⟩ := ht
  have hpos : (0 : ℝ) < 2 ^ e := by positivity
  have hh : (2 : ℝ) ^ (-(p : ℤ)) ≤ 1 / 2 := by
    have : (2 : ℝ) ^ (-(p : ℤ)) ≤ 2 ^ (-1 : ℤ) := zpow_le_zpow_right₀ (by norm_num) (by omega)
    simpa using this
  rcases le_or_gt 0 e with he | he
  · -- an integer below 1
    obtain ⟨d, rfl⟩ := Int.eq_ofNat_of_zero_le he
    have h2 : ((m * 2 ^ d : ℤ) : ℝ) < (1 : ℤ) := by
      push_cast
      rwa [zpow_natCast] at h1
    have h3 : m * 2 ^ d ≤ 0 := by
      have := Int.cast_lt.1 h2
      omega
    have h4 : ((m * 2 ^ d : ℤ) : ℝ) ≤ 0 := by exact_mod_cast h3
    push_cast at h4
    rw [zpow_natCast]
    linarith
  · rcases le_or_gt (-(p : ℤ)) e with hep | hep
    · obtain ⟨d, hd⟩ : ∃ d : ℕ, e = -(d : ℤ) := ⟨(-e).toNat, by omega⟩
      have e1 : (2 : ℝ) ^ e * 2 ^ d = 1 := by
        rw [hd, zpow_neg, zpow_natCast]
        exact inv_mul_cancel₀ (by positivity)
      have h2 : (m : ℝ) < 2 ^ d := by
        by_contra hc
        push Not at hc
        have := mul_le_mul_of_nonneg_right hc hpos.le
        linarith
      have h3 : (m : ℝ) + 1 ≤ 2 ^ d := by
        have : m < 2 ^ d := by exact_mod_cast h2
        exact_mod_cast this
      have h4 := mul_le_mul_of_nonneg_right h3 hpos.le
      have h5 : (2 : ℝ) ^ (-(p : ℤ)) ≤ 2 ^ e := zpow_le_zpow_right₀ (by norm_num) hep
      linarith
    · have h2 : (m : ℝ) ≤ 2 ^ p := by
        have := (abs_le.1 hm).2
        exact_mod_cast this
      have h3 := mul_le_mul_of_nonneg_right h2 hpos.le
      have h4 : (2 : ℝ) ^ p * 2 ^ e ≤ 1 / 2 := by
        rw [← zpow_natCast, ← zpow_add₀ (by norm_num)]
        have : (2 : ℝ) ^ ((p : ℤ) + e) ≤ 2 ^ (-1 : ℤ) :=
          zpow_le_zpow_right₀ (by norm_num) (by omega)
        simpa using this
      linarith

/-- A number which is a multiple of a power of two not below the smallest one, and whose unit in
the last place is the smallest one, is exact. -/
theorem ieeeRnd_of_ulp_min {x : ℝ} {m : ℤ} (hx : x = m * 2 ^ emin)
    (h : ulpExp p emin x = emin) : ieeeRnd p emin x = x :=
  ieeeRnd_of_int hx h.le

theorem ieeeGrid_multiple {x : ℝ} (hx : x ∈ ieeeGrid p emin) : ∃ m : ℤ, x = m * 2 ^ emin := by
  obtain ⟨m, e, _, he, rfl⟩ := hx
  obtain ⟨d, rfl⟩ : ∃ d : ℕ, e = emin + d := ⟨(e - emin).toNat, by omega⟩
  refine ⟨m * 2 ^ d, ?_⟩
  rw [zpow_add₀ (by norm_num), zpow_natCast]
  push_cast
  ring

/-- The rounded product of a rounded positive difference and a factor below 1 does not exceed the
exact difference. -/
theorem ieeeRnd_step_le (hp : 1 ≤ p) {d t : ℝ} {m : ℤ} (hd : d = m * 2 ^ emin) (d0 : 0 ≤ d)
    (ht : t ∈ ieeeGrid p emin) (t0 : 0 ≤ t) (t1 : t < 1) :
    ieeeRnd p emin (ieeeRnd p emin d * t) ≤ d := by
  have z0 : 0 ≤ ieeeRnd p emin d := ieeeRnd_nonneg d0
  rcases le_or_gt (ieeeRnd p emin d) d with hle | hgt
  · have h1 : ieeeRnd p emin d * t ≤ ieeeRnd p emin d := by
      have := mul_le_mul_of_nonneg_left t1.le z0
      linarith
    have h2 := ieeeRnd_mono (emin := emin) hp h1
    rw [ieeeRnd_of_mem hp _ (ieeeRnd_mem d)] at h2
    exact h2.trans hle
  · have dpos : 0 < d := by
      rcases d0.lt_or_eq with h | h
      · exact h
      · rw [← h, ieeeRnd_zero] at hgt
        exact absurd hgt (lt_irrefl _)
    -- the difference is not exact, so it is in the normal range
    have hk : ulpExp p emin d = Int.log 2 |d| - ((p : ℤ) - 1) := by
      rcases max_choice (Int.log 2 |d| - ((p : ℤ) - 1)) emin with h | h
      · exact h
      · exact absurd (ieeeRnd_of_ulp_min (p := p) hd h) hgt.ne'
    set k := ulpExp p emin d with hkdef
    have kpos : (0 : ℝ) < 2 ^ k := by positivity
    have kmin : emin ≤ k := le_max_right _ _
    set N := roundEven (d / 2 ^ k) with hN
    have hz : ieeeRnd p emin d = N * 2 ^ k := rfl
    have hlow : (2 : ℝ) ^ ((p : ℤ) - 1) * 2 ^ k ≤ d := by
      have h1 := Int.zpow_log_le_self (b := 2) (by norm_num) (abs_pos.2 dpos.ne')
      rw [← zpow_add₀ (by norm_num), show (p : ℤ) - 1 + k = Int.log 2 |d| by omega]
      rw [abs_of_pos dpos] at h1 ⊢
      exact_mod_cast h1
    have dk : d / 2 ^ k * 2 ^ k = d := div_mul_cancel₀ _ kpos.ne'
    have herr := abs_le.1 (roundEven_err (d / 2 ^ k))
    rw [← hN] at herr
    have hq : (2 : ℝ) ^ ((p : ℤ) - 1) ≤ d / 2 ^ k := (le_div_iff₀ kpos).2 hlow
    have hNq : d / 2 ^ k < N := by
      rw [div_lt_iff₀ kpos, ← hz]
      exact hgt
    obtain ⟨q, hpq⟩ : ∃ q : ℕ, p = q + 1 := ⟨p - 1, by omega⟩
    have e2 : (2 : ℝ) ^ ((p : ℤ) - 1) = ((2 ^ q : ℤ) : ℝ) := by
      rw [hpq]
      push_cast
      rw [add_sub_cancel_right, zpow_natCast]
    have hN1 : 2 ^ q + 1 ≤ N := by
      have : ((2 ^ q : ℤ) : ℝ) < N := by linarith [hq.trans_lt hNq]
      have := Int.cast_lt.1 this
      omega
    have hN1' : ((2 ^ q : ℤ) : ℝ) + 1 ≤ N := by exact_mod_cast hN1
    -- the product is below the middle of the two neighbours of the difference
    have ht' := ieeeGrid_lt_one ht hp t1
    have e3 : ((2 ^ q : ℤ) : ℝ) * 2 ^ (-(p : ℤ)) = 1 / 2 := by
      rw [hpq]
      push_cast
      rw [zpow_neg, show ((q : ℤ) + 1) = ((q + 1 : ℕ) : ℤ) by push_cast; ring, zpow_natCast,
        pow_succ]
      field_simp
    have upos : (0 : ℝ) < 2 ^ (-(p : ℤ)) := by positivity
    have hprod : (N : ℝ) * t < N - 1 / 2 := by
      have n0 : (0 : ℝ) ≤ N := by
        have : (0 : ℝ) ≤ ((2 ^ q : ℤ) : ℝ) := by positivity
        linarith
      have h1 := mul_le_mul_of_nonneg_left ht' n0
      have h2 := mul_le_mul_of_nonneg_right hN1' upos.le
      have h3 : ((2 ^ q : ℤ) + 1 : ℝ) * 2 ^ (-(p : ℤ)) = 1 / 2 + 2 ^ (-(p : ℤ)) := by
        have e3' := e3
        push_cast at e3' ⊢
        rw [add_mul, e3', one_mul]
      push_cast at h2 h3
      rw [h3] at h2
      linarith
    have hmid : (N : ℝ) - 1 / 2 ≤ d / 2 ^ k := by linarith [herr.1]
    -- the neighbour below
    have hprev : ((N - 1 : ℤ) : ℝ) * 2 ^ k ≤ d := by
      rw [← dk]
      apply mul_le_mul_of_nonneg_right _ kpos.le
      push_cast
      linarith
    have hmemN := ieeeRnd_mem (p := p) (emin := emin) d
    have hNp : (N : ℝ) ≤ 2 ^ p + 1 / 2 := by
      have h1 := abs_lt_two_zpow (p := p) (emin := emin) (x := d)
      rw [abs_of_pos dpos, ← hkdef, zpow_add₀ (by norm_num), zpow_natCast] at h1
      have h2 : d / 2 ^ k < 2 ^ p := (div_lt_iff₀ kpos).2 h1
      linarith [herr.1]
    have hmem : ((N - 1 : ℤ) : ℝ) * 2 ^ k ∈ ieeeGrid p emin := by
      refine ⟨N - 1, k, ?_, kmin, rfl⟩
      have h1 : ((N - 1 : ℤ) : ℝ) < ((2 ^ p : ℤ) : ℝ) := by
        push_cast
        linarith
      have h2 := Int.cast_lt.1 h1
      have h3 : (0 : ℤ) ≤ 2 ^ q := by positivity
      rw [abs_le]
      constructor <;> omega
    refine le_trans ?_ hprev
    rw [hz, show (N : ℝ) * 2 ^ k * t = (N * t) * 2 ^ k by ring]
    rcases le_or_gt ((N : ℝ) * t) ((N - 1 : ℤ) : ℝ) with hc | hc
    · have h1 := ieeeRnd_mono (emin := emin) hp (mul_le_mul_of_nonneg_right hc kpos.le)
      rwa [ieeeRnd_of_mem hp _ hmem] at h1
    · -- same binade as the difference
      set x := (N : ℝ) * t * 2 ^ k with hx
      have xk : x / 2 ^ k = N * t := by rw [hx]; field_simp
      have hx1 : (2 : ℝ) ^ ((p : ℤ) - 1) * 2 ^ k ≤ x := by
        apply mul_le_mul_of_nonneg_right _ kpos.le
        rw [e2]
        push_cast at hc hN1' ⊢
        linarith
      have hx2 : x ≤ d := by
        rw [← dk]
        apply mul_le_mul_of_nonneg_right _ kpos.le
        linarith
      have xpos : 0 < x := lt_of_lt_of_le (by positivity) hx1
      have hlog : Int.log 2 |x| = Int.log 2 |d| := by
        apply _root_.le_antisymm
        · exact Int.log_mono_right (abs_pos.2 xpos.ne')
            (by rwa [abs_of_pos xpos, abs_of_pos dpos])
        · have h1 : (2 : ℝ) ^ Int.log 2 |d| ≤ |x| := by
            rw [abs_of_pos xpos, show Int.log 2 |d| = (p : ℤ) - 1 + k by omega,
              zpow_add₀ (by norm_num)]
            exact hx1
          exact (Int.zpow_le_iff_le_log (by norm_num) (abs_pos.2 xpos.ne')).1
            (by exact_mod_cast h1)
      have hux : ulpExp p emin x = k := by
        rw [hkdef]
        unfold ulpExp
        rw [hlog]
      have hr : ieeeRnd p emin x = roundEven (x / 2 ^ k) * 2 ^ k := by
        unfold ieeeRnd
        rw [hux]
      rw [hr, xk]
      apply mul_le_mul_of_nonneg_right _ kpos.le
      have h1 : roundEven ((N : ℝ) * t) = N - 1 := by
        apply roundEven_unique (roundEven_spec _)
        left
        push_cast at hc ⊢
        rw [abs_lt]
        constructor <;> linarith
      rw [h1]

end Stroke
