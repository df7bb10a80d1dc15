import Verif.Lemmas.IeeeScale
import Verif.Props.FloatExact
import Verif.Props.AnyMaps

/-!
# Changing the unit of length by a power of two (C139)

In floating point, multiplying by a power of two is exact unless it underflows or overflows.  A user
who changes the unit of length by such a factor (from pixels to half pixels, say, or to put the
coordinates into a better range) expects the results to change by that factor and by nothing else.
Here: if the coordinates and the parameter are multiples of a power of two and not too large, so
that neither computation underflows or overflows (`ScaleRoom`, `LengthRoom`), the two computations
run in step and the results are exactly `2^k` times the others, bit for bit: points, both halves of
a split, derivatives, arc lengths and distances to curves.  `LineSegment::distance_to_point` is the
exception, since it compares a squared length with a fixed tolerance.
-/

set_option linter.unusedSectionVars false

namespace Stroke

open Fl

variable {F : FloatFormat} {n : ℕ}

/-- `x` is a multiple of `2^m`. -/
def IsMultiple (m : ℤ) (x : ℝ) : Prop := ∃ z : ℤ, x = z * 2 ^ m

/-- A binary format with `p` bits whose values of size `2^low` to `2^top` are neither subnormal nor
too large. -/
structure FloatFormat.Binary (F : FloatFormat) (p : ℕ) (low top : ℤ) : Prop where
  scale : ∀ (k : ℤ) (x : ℝ), 2 ^ low ≤ |x| → 2 ^ low ≤ |2 ^ k * x| →
    F.rnd (2 ^ k * x) = 2 ^ k * F.rnd x
  multiple : ∀ (m : ℤ) (x : ℝ), IsMultiple m x → IsMultiple m (F.rnd x)
  coarse : ∀ (e : ℤ) (x : ℝ), x ∈ F.grid → 2 ^ e ≤ |x| → IsMultiple (e - p) x
  mem : ∀ z m : ℤ, |z| ≤ 2 ^ p → low ≤ m → (z : ℝ) * 2 ^ m ∈ F.grid
  top_le : (2 : ℝ) ^ top ≤ F.max

theorem ieee_binary (p : ℕ) (emin : ℤ) (emax : ℕ) (hp : 11 ≤ p) (he : emin ≤ 1 - p)
    (cosI acosI : ℝ → ℝ) (powI : ℝ → ℝ → ℝ) :
    (ieee p emin emax hp he cosI acosI powI).Binary p (emin + p - 1) (emax + p - 1) where
  scale _ _ h1 h2 := ieeeRnd_scale h1 h2
  multiple _ _ h := ieeeRnd_multiple h
  coarse _ _ hx h := ieeeGrid_coarse hx h
  mem z m hz hm := ⟨z, m, hz, by omega, rfl⟩
  top_le := by
    show (2 : ℝ) ^ ((emax : ℤ) + p - 1) ≤ (2 ^ p - 1) * 2 ^ emax
    obtain ⟨q, rfl⟩ : ∃ q, p = q + 1 := ⟨p - 1, by omega⟩
    rw [show (emax : ℤ) + ((q + 1 : ℕ) : ℤ) - 1 = ((q + emax : ℕ) : ℤ) by push_cast; ring,
      zpow_natCast, pow_add, pow_succ]
    apply mul_le_mul_of_nonneg_right _ (by positivity)
    have : (1 : ℝ) ≤ 2 ^ q := one_le_pow₀ (by norm_num)
    linarith

/-- The float is a finite multiple of `2^m` of size at most `2^b`. -/
def OnGrid (m b : ℤ) (x : Fl F) : Prop :=
  x.IsFinite ∧ IsMultiple m x.toReal ∧ |x.toReal| ≤ 2 ^ b

/-- Each coordinate of the point is a finite multiple of `2^m` of size at most `2^b`. -/
def PointOnGrid (m b : ℤ) (p : PointN (Fl F) n) : Prop := ∀ i, OnGrid m b (p.coords i)

/-- The float `2^k`. -/
noncomputable def twoPow (F : FloatFormat) (k : ℤ) : Fl F := F.round ((2 : ℝ) ^ k)

/-- The point multiplied by the float `2^k`, with the multiplication of the library. -/
noncomputable def timesTwoPow (k : ℤ) (x : PointN (Fl F) n) : PointN (Fl F) n := x * twoPow F k

/-- `y` is `2^k * x`, exactly, and `x` is a multiple of `2^m` of size at most `2^b`. -/
def ScaledFl (k m b : ℤ) (x y : Fl F) : Prop :=
  ∃ r hr hr', x = fin r hr ∧ y = fin (2 ^ k * r) hr' ∧ IsMultiple m r ∧ |r| ≤ 2 ^ b

/-- The same for all coordinates. -/
def ScaledPt (k m b : ℤ) (x y : PointN (Fl F) n) : Prop :=
  ∀ i, ScaledFl k m b (x.coords i) (y.coords i)

theorem two_zpow_mono {a b : ℤ} (h : a ≤ b) : (2 : ℝ) ^ a ≤ 2 ^ b :=
  zpow_le_zpow_right₀ (by norm_num) h

theorem IsMultiple.mono {m m' : ℤ} {x : ℝ} (h : IsMultiple m x) (hm : m' ≤ m) :
    IsMultiple m' x := by
  obtain ⟨z, rfl⟩ := h
  refine ⟨z * 2 ^ (m - m').toNat, ?_⟩
  push_cast
  rw [mul_assoc]
  congr 1
  rw [← zpow_natCast, ← zpow_add₀ (by norm_num)]
  congr 1
  omega

theorem IsMultiple.le_abs {m : ℤ} {x : ℝ} (h : IsMultiple m x) (h0 : x ≠ 0) : 2 ^ m ≤ |x| := by
  obtain ⟨z, rfl⟩ := h
  have h2 : (0 : ℝ) < 2 ^ m := by positivity
  have hz : z ≠ 0 := by
    rintro rfl
    simp at h0
  have : (1 : ℝ) ≤ |(z : ℝ)| := by exact_mod_cast Int.one_le_abs hz
  rw [abs_mul, abs_of_pos h2]
  exact le_mul_of_one_le_left h2.le this

theorem IsMultiple.add {m : ℤ} {x y : ℝ} (hx : IsMultiple m x) (hy : IsMultiple m y) :
    IsMultiple m (x + y) := by
  obtain ⟨z, rfl⟩ := hx
  obtain ⟨w, rfl⟩ := hy
  exact ⟨z + w, by push_cast; ring⟩

theorem IsMultiple.neg {m : ℤ} {x : ℝ} (hx : IsMultiple m x) : IsMultiple m (-x) := by
  obtain ⟨z, rfl⟩ := hx
  exact ⟨-z, by push_cast; ring⟩

theorem IsMultiple.sub {m : ℤ} {x y : ℝ} (hx : IsMultiple m x) (hy : IsMultiple m y) :
    IsMultiple m (x - y) := by
  rw [sub_eq_add_neg]
  exact hx.add hy.neg

theorem IsMultiple.mul {m m' : ℤ} {x y : ℝ} (hx : IsMultiple m x) (hy : IsMultiple m' y) :
    IsMultiple (m + m') (x * y) := by
  obtain ⟨z, rfl⟩ := hx
  obtain ⟨w, rfl⟩ := hy
  refine ⟨z * w, ?_⟩
  rw [zpow_add₀ (by norm_num)]
  push_cast
  ring

theorem isMultiple_int (z : ℤ) : IsMultiple 0 (z : ℝ) := ⟨z, by simp⟩

theorem isMultiple_zero (m : ℤ) : IsMultiple m 0 := ⟨0, by simp⟩

section
variable {p : ℕ} {low top : ℤ} (hF : F.Binary p low top)
include hF

theorem FloatFormat.Binary.two_mem {m : ℤ} (hm : low ≤ m) : (2 : ℝ) ^ m ∈ F.grid := by
  have := hF.mem 1 m (by rw [abs_one]; exact one_le_pow₀ (by norm_num)) hm
  simpa using this

/-- Rounding commutes with the scaling. -/
theorem FloatFormat.Binary.rnd_scale {m k : ℤ} {r : ℝ} (hm : IsMultiple m r) (h1 : low ≤ m)
    (h2 : low ≤ m + k) : F.rnd (2 ^ k * r) = 2 ^ k * F.rnd r := by
  by_cases h0 : r = 0
  · rw [h0, mul_zero, F.rnd_of_mem 0 F.zero_ok.1, mul_zero]
  · have h3 := hm.le_abs h0
    have hk : (0 : ℝ) < 2 ^ k := by positivity
    refine hF.scale k r ((two_zpow_mono h1).trans h3) ((two_zpow_mono h2).trans ?_)
    rw [abs_mul, abs_of_pos hk, add_comm, zpow_add₀ (by norm_num)]
    exact mul_le_mul_of_nonneg_left h3 hk.le

theorem FloatFormat.Binary.rnd_le {m b : ℤ} {r : ℝ} (hm : IsMultiple m r) (hb : |r| ≤ 2 ^ b)
    (h1 : low ≤ m) : |F.rnd r| ≤ 2 ^ b := by
  by_cases h0 : r = 0
  · rw [h0, F.rnd_of_mem 0 F.zero_ok.1, abs_zero]
    positivity
  · have h3 := (hm.le_abs h0).trans hb
    have h4 := (zpow_le_zpow_iff_right₀ (by norm_num : (1 : ℝ) < 2)).1 h3
    exact F.abs_rnd_le (hF.two_mem (h1.trans h4)) hb

/-- The rounded results of an operation and of the scaled operation. -/
theorem ScaledFl.round {k m b : ℤ} {r r' : ℝ} (hm : IsMultiple m r) (hb : |r| ≤ 2 ^ b)
    (h1 : low ≤ m) (h2 : low ≤ m + k) (h3 : b ≤ top) (h4 : b + k ≤ top)
    (e : r' = 2 ^ k * r) : ScaledFl k m b (F.round r) (F.round r') := by
  subst e
  have hk : (0 : ℝ) < 2 ^ k := by positivity
  have l1 := hF.rnd_le hm hb h1
  have l2 : |F.rnd r| ≤ F.max := l1.trans ((two_zpow_mono h3).trans hF.top_le)
  have l3 : |F.rnd (2 ^ k * r)| ≤ F.max := by
    rw [hF.rnd_scale hm h1 h2, abs_mul, abs_of_pos hk]
    refine (mul_le_mul_of_nonneg_left l1 hk.le).trans ?_
    rw [← zpow_add₀ (by norm_num), add_comm]
    exact (two_zpow_mono h4).trans hF.top_le
  have l4 : F.rnd (2 ^ k * r) ∈ F.grid ∧ |F.rnd (2 ^ k * r)| ≤ F.max := ⟨F.rnd_mem _, l3⟩
  refine ⟨F.rnd r, ⟨F.rnd_mem _, l2⟩, by rwa [← hF.rnd_scale hm h1 h2], F.round_of_rnd_le l2, ?_,
    hF.multiple m r hm, l1⟩
  rw [F.round_of_rnd_le l3]
  exact fin_congr (hF.rnd_scale hm h1 h2)

omit hF in
theorem ScaledFl.mono {k m b m' b' : ℤ} {x y : Fl F} (h : ScaledFl k m b x y) (hm : m' ≤ m)
    (hb : b ≤ b') : ScaledFl k m' b' x y := by
  obtain ⟨r, hr, hr', rfl, rfl, h1, h2⟩ := h
  exact ⟨r, hr, hr', rfl, rfl, h1.mono hm, h2.trans (two_zpow_mono hb)⟩

omit hF in
theorem ScaledFl.neg {k m b : ℤ} {x y : Fl F} (h : ScaledFl k m b x y) :
    ScaledFl k m b (-x) (-y) := by
  obtain ⟨r, hr, hr', rfl, rfl, h1, h2⟩ := h
  refine ⟨-r, ⟨F.neg_mem r hr.1, by rw [abs_neg]; exact hr.2⟩, ?_, rfl, ?_, h1.neg, by rwa [abs_neg]⟩
  · rw [mul_neg]
    exact ⟨F.neg_mem _ hr'.1, by rw [abs_neg]; exact hr'.2⟩
  · rw [fin_neg]
    exact fin_congr (by ring)

theorem ScaledFl.add {k m b : ℤ} {x y x' y' : Fl F} (h : ScaledFl k m b x y)
    (h' : ScaledFl k m b x' y') (h1 : low ≤ m) (h2 : low ≤ m + k) (h3 : b + 1 ≤ top)
    (h4 : b + 1 + k ≤ top) : ScaledFl k m (b + 1) (x + x') (y + y') := by
  obtain ⟨r, hr, hr', rfl, rfl, m1, b1⟩ := h
  obtain ⟨s, hs, hs', rfl, rfl, m2, b2⟩ := h'
  rw [fin_add, fin_add]
  refine ScaledFl.round hF (m1.add m2) ?_ h1 h2 h3 h4 (by ring)
  rw [zpow_add₀ (by norm_num), zpow_one]
  have := abs_add_le r s
  linarith

theorem ScaledFl.sub {k m b : ℤ} {x y x' y' : Fl F} (h : ScaledFl k m b x y)
    (h' : ScaledFl k m b x' y') (h1 : low ≤ m) (h2 : low ≤ m + k) (h3 : b + 1 ≤ top)
    (h4 : b + 1 + k ≤ top) : ScaledFl k m (b + 1) (x - x') (y - y') := by
  exact h.add hF h'.neg h1 h2 h3 h4

theorem ScaledFl.mul {k m b k' m' b' : ℤ} {x y x' y' : Fl F} (h : ScaledFl k m b x y)
    (h' : ScaledFl k' m' b' x' y') (h1 : low ≤ m + m') (h2 : low ≤ m + m' + (k + k'))
    (h3 : b + b' ≤ top) (h4 : b + b' + (k + k') ≤ top) :
    ScaledFl (k + k') (m + m') (b + b') (x * x') (y * y') := by
  obtain ⟨r, hr, hr', rfl, rfl, m1, b1⟩ := h
  obtain ⟨s, hs, hs', rfl, rfl, m2, b2⟩ := h'
  rw [fin_mul, fin_mul]
  refine ScaledFl.round hF (m1.mul m2) ?_ h1 h2 h3 h4 ?_
  · rw [zpow_add₀ (by norm_num), abs_mul]
    exact mul_le_mul b1 b2 (abs_nonneg _) (by positivity)
  · rw [zpow_add₀ (by norm_num)]
    ring

omit hF in
/-- A parameter is not scaled. -/
theorem OnGrid.same {m b : ℤ} {t : Fl F} (ht : OnGrid m b t) : ScaledFl 0 m b t t := by
  obtain ⟨f, h1, h2⟩ := ht
  obtain ⟨r, hr, rfl⟩ := isFinite_iff.1 f
  exact ⟨r, hr, by simpa using hr, rfl, fin_congr (by simp), h1, h2⟩

omit hF in
theorem ScaledFl.onGrid {k m b : ℤ} {x y : Fl F} (h : ScaledFl k m b x y) : OnGrid m b x := by
  obtain ⟨r, hr, hr', rfl, rfl, h1, h2⟩ := h
  exact ⟨trivial, h1, h2⟩

/-- Multiplication by a factor that is not scaled. -/
theorem ScaledFl.mulParam {k m b h c : ℤ} {x y t : Fl F} (hx : ScaledFl k m b x y)
    (ht : OnGrid h c t) (h1 : low ≤ m + h) (h2 : low ≤ m + h + k) (h3 : b + c ≤ top)
    (h4 : b + c + k ≤ top) : ScaledFl k (m + h) (b + c) (x * t) (y * t) := by
  have := hx.mul hF ht.same h1 (by omega) h3 (by omega)
  rwa [add_zero] at this

theorem twoPow_eq {k : ℤ} (h1 : low ≤ k) (h2 : k ≤ top) :
    ∃ h, twoPow F k = fin (2 ^ k) h := by
  have h3 : (2 : ℝ) ^ k ∈ F.grid ∧ |(2 : ℝ) ^ k| ≤ F.max :=
    ⟨hF.two_mem h1, by
      rw [abs_of_pos (by positivity)]
      exact (two_zpow_mono h2).trans hF.top_le⟩
  exact ⟨h3, F.round_of_mem h3⟩

/-- A scaled value is the computed product with the float `2^k`. -/
theorem ScaledFl.eq_mul {k m b : ℤ} {x y : Fl F} (h : ScaledFl k m b x y) (h1 : low ≤ k)
    (h2 : k ≤ top) : y = x * twoPow F k := by
  obtain ⟨r, hr, hr', rfl, rfl, _, _⟩ := h
  obtain ⟨h3, e⟩ := twoPow_eq hF h1 h2
  have h4 : r * 2 ^ k ∈ F.grid ∧ |r * 2 ^ k| ≤ F.max := by rwa [mul_comm]
  rw [e, fin_mul, F.round_of_mem h4]
  exact fin_congr (mul_comm _ _)

/-- Multiplying with the float `2^k` scales exactly. -/
theorem OnGrid.scaled {k m b : ℤ} {x : Fl F} (hx : OnGrid m b x) (h1 : low ≤ k) (h2 : k ≤ top)
    (h3 : low ≤ m) (h4 : low ≤ m + k) (h5 : b ≤ top) (h6 : b + k ≤ top) :
    ScaledFl k m b x (x * twoPow F k) := by
  obtain ⟨f, m1, b1⟩ := hx
  obtain ⟨r, hr, rfl⟩ := isFinite_iff.1 f
  obtain ⟨h7, e⟩ := twoPow_eq hF h1 h2
  rw [e, fin_mul]
  have := ScaledFl.round (k := k) hF m1 b1 h3 h4 h5 h6 rfl
  rw [toReal_fin, F.round_of_mem hr] at this
  rwa [mul_comm r]

/-- Square roots of scaled squares. -/
theorem ScaledFl.sqrt {k m b : ℤ} {x y : Fl F} (h : ScaledFl (k + k) (m + m) (b + b) x y)
    (h0 : 0 ≤ x.toReal) (h1 : low ≤ m) (h2 : low ≤ m + k) (h3 : b ≤ top) (h4 : b + k ≤ top)
    (h5 : low ≤ b) :
    ScaledFl k (m - p) b (Scalar.sqrt x) (Scalar.sqrt y) := by
  obtain ⟨r, hr, hr', rfl, rfl, m1, b1⟩ := h
  rw [toReal_fin] at h0
  have hk : (0 : ℝ) < 2 ^ k := by positivity
  have e1 : Scalar.sqrt (fin r hr : Fl F) = F.round (Real.sqrt r) := if_neg (not_lt.2 h0)
  have e2 : Scalar.sqrt (fin (2 ^ (k + k) * r) hr' : Fl F) = F.round (2 ^ k * Real.sqrt r) := by
    have : (0 : ℝ) ≤ 2 ^ (k + k) * r := by positivity
    refine (if_neg (not_lt.2 this)).trans ?_
    congr 1
    rw [zpow_add₀ (by norm_num), Real.sqrt_mul (by positivity), Real.sqrt_mul_self hk.le]
  rw [e1, e2]
  by_cases r0 : r = 0
  · subst r0
    rw [Real.sqrt_zero, mul_zero, F.round_of_mem F.zero_ok]
    exact ⟨0, F.zero_ok, by rw [mul_zero]; exact F.zero_ok, rfl, fin_congr (by rw [mul_zero]),
      isMultiple_zero _, by rw [abs_zero]; positivity⟩
  · have q1 : (2 : ℝ) ^ m ≤ Real.sqrt r := by
      rw [Real.le_sqrt (by positivity) h0, sq, ← zpow_add₀ (by norm_num)]
      have := m1.le_abs r0
      rwa [abs_of_nonneg h0] at this
    have q2 : Real.sqrt r ≤ 2 ^ b := by
      rw [Real.sqrt_le_left (by positivity), sq, ← zpow_add₀ (by norm_num)]
      rwa [abs_of_nonneg h0] at b1
    have q0 : |Real.sqrt r| = Real.sqrt r := abs_of_nonneg (Real.sqrt_nonneg _)
    have sc : F.rnd (2 ^ k * Real.sqrt r) = 2 ^ k * F.rnd (Real.sqrt r) := by
      refine hF.scale k _ (by rw [q0]; exact (two_zpow_mono h1).trans q1) ?_
      rw [abs_mul, abs_of_pos hk, q0]
      refine (two_zpow_mono h2).trans ?_
      rw [add_comm, zpow_add₀ (by norm_num)]
      exact mul_le_mul_of_nonneg_left q1 hk.le
    have l1 : |F.rnd (Real.sqrt r)| ≤ 2 ^ b := F.abs_rnd_le (hF.two_mem h5) (by rwa [q0])
    have l0 : (2 : ℝ) ^ m ≤ F.rnd (Real.sqrt r) := by
      have := F.rnd_mono q1
      rwa [F.rnd_of_mem _ (hF.two_mem h1)] at this
    have l2 : |F.rnd (Real.sqrt r)| ≤ F.max := l1.trans ((two_zpow_mono h3).trans hF.top_le)
    have l3 : |F.rnd (2 ^ k * Real.sqrt r)| ≤ F.max := by
      rw [sc, abs_mul, abs_of_pos hk]
      refine (mul_le_mul_of_nonneg_left l1 hk.le).trans ?_
      rw [← zpow_add₀ (by norm_num), add_comm]
      exact (two_zpow_mono h4).trans hF.top_le
    have l4 : F.rnd (2 ^ k * Real.sqrt r) ∈ F.grid ∧ |F.rnd (2 ^ k * Real.sqrt r)| ≤ F.max :=
      ⟨F.rnd_mem _, l3⟩
    refine ⟨F.rnd (Real.sqrt r), ⟨F.rnd_mem _, l2⟩, by rwa [← sc], F.round_of_rnd_le l2, ?_,
      hF.coarse m _ (F.rnd_mem _) (l0.trans (le_abs_self _)), l1⟩
    rw [F.round_of_rnd_le l3]
    exact fin_congr sc

omit hF in
/-- Comparisons do not change. -/
theorem ScaledFl.lt {k m b m' b' : ℤ} {x y x' y' : Fl F} (h : ScaledFl k m b x y)
    (h' : ScaledFl k m' b' x' y') : Scalar.lt y y' = Scalar.lt x x' := by
  obtain ⟨r, hr, hr', rfl, rfl, _, _⟩ := h
  obtain ⟨s, hs, hs', rfl, rfl, _, _⟩ := h'
  rw [Bool.eq_iff_iff, lt_fin, lt_fin]
  exact mul_lt_mul_iff_of_pos_left (by positivity)

/-! ### Points -/

omit hF in
theorem ScaledPt.mono {k m b m' b' : ℤ} {x y : PointN (Fl F) n} (h : ScaledPt k m b x y)
    (hm : m' ≤ m) (hb : b ≤ b') : ScaledPt k m' b' x y := fun i => (h i).mono hm hb

theorem ScaledPt.eq_mul {k m b : ℤ} {x y : PointN (Fl F) n} (h : ScaledPt k m b x y)
    (h1 : low ≤ k) (h2 : k ≤ top) : y = x * twoPow F k := by
  obtain ⟨y⟩ := y
  show (⟨y⟩ : PointN (Fl F) n) = ⟨fun i => x.coords i * twoPow F k⟩
  congr 1
  funext i
  exact (h i).eq_mul hF h1 h2

theorem PointOnGrid.scaled {k m b : ℤ} {x : PointN (Fl F) n} (hx : PointOnGrid m b x)
    (h1 : low ≤ k) (h2 : k ≤ top)
    (h3 : low ≤ m) (h4 : low ≤ m + k) (h5 : b ≤ top) (h6 : b + k ≤ top) :
    ScaledPt k m b x (x * twoPow F k) := fun i => (hx i).scaled hF h1 h2 h3 h4 h5 h6

omit hF in
theorem ScaledPt.onGrid {k m b : ℤ} {x y : PointN (Fl F) n} (h : ScaledPt k m b x y) :
    PointOnGrid m b x := fun i => (h i).onGrid

theorem ScaledPt.add {k m b : ℤ} {x y x' y' : PointN (Fl F) n} (h : ScaledPt k m b x y)
    (h' : ScaledPt k m b x' y') (h1 : low ≤ m) (h2 : low ≤ m + k) (h3 : b + 1 ≤ top)
    (h4 : b + 1 + k ≤ top) : ScaledPt k m (b + 1) (x + x') (y + y') :=
  fun i => (h i).add hF (h' i) h1 h2 h3 h4

theorem ScaledPt.sub {k m b : ℤ} {x y x' y' : PointN (Fl F) n} (h : ScaledPt k m b x y)
    (h' : ScaledPt k m b x' y') (h1 : low ≤ m) (h2 : low ≤ m + k) (h3 : b + 1 ≤ top)
    (h4 : b + 1 + k ≤ top) : ScaledPt k m (b + 1) (x - x') (y - y') :=
  fun i => (h i).sub hF (h' i) h1 h2 h3 h4

theorem ScaledPt.mulParam {k m b h c : ℤ} {x y : PointN (Fl F) n} {t : Fl F}
    (hx : ScaledPt k m b x y) (ht : OnGrid h c t) (h1 : low ≤ m + h) (h2 : low ≤ m + h + k)
    (h3 : b + c ≤ top) (h4 : b + c + k ≤ top) :
    ScaledPt k (m + h) (b + c) (x * t) (y * t) := fun i => (hx i).mulParam hF ht h1 h2 h3 h4

omit hF in
theorem onGrid_int {z : ℤ} (hz : |z| ≤ 1024) {b : ℕ} (hb : |z| ≤ 2 ^ b) :
    OnGrid 0 b (lit (z : ℚ) : Fl F) := by
  rw [lit_int z hz]
  refine ⟨trivial, isMultiple_int z, ?_⟩
  rw [toReal_fin, zpow_natCast]
  exact_mod_cast hb

omit hF in
theorem onGrid_lit1 : OnGrid 0 0 (lit 1 : Fl F) := by
  simpa using onGrid_int (F := F) (z := 1) (by norm_num) (b := 0) (by norm_num)

omit hF in
theorem onGrid_lit2 : OnGrid 0 1 (lit 2 : Fl F) := by
  simpa using onGrid_int (F := F) (z := 2) (by norm_num) (b := 1) (by norm_num)

omit hF in
theorem onGrid_lit3 : OnGrid 0 2 (lit 3 : Fl F) := by
  simpa using onGrid_int (F := F) (z := 3) (by norm_num) (b := 2) (by norm_num)

omit hF in
theorem OnGrid.mono {m b m' b' : ℤ} {x : Fl F} (h : OnGrid m b x) (hm : m' ≤ m)
    (hb : b ≤ b') : OnGrid m' b' x :=
  ⟨h.1, h.2.1.mono hm, h.2.2.trans (two_zpow_mono hb)⟩

theorem OnGrid.add {m b : ℤ} {x y : Fl F} (hx : OnGrid m b x) (hy : OnGrid m b y)
    (h1 : low ≤ m) (h3 : b + 1 ≤ top) : OnGrid m (b + 1) (x + y) :=
  (hx.same.add hF hy.same h1 (by omega) h3 (by omega)).onGrid

theorem OnGrid.mul {m b m' b' : ℤ} {x y : Fl F} (hx : OnGrid m b x) (hy : OnGrid m' b' y)
    (h1 : low ≤ m + m') (h3 : b + b' ≤ top) : OnGrid (m + m') (b + b') (x * y) :=
  (hx.same.mulParam hF hy h1 (by omega) h3 (by omega)).onGrid

omit hF in
/-- A finite rounded non-negative number is not negative. -/
theorem round_nonneg {r z : ℝ} {hz : z ∈ F.grid ∧ |z| ≤ F.max} (h : F.round r = fin z hz)
    (h0 : 0 ≤ r) : 0 ≤ z := by
  unfold FloatFormat.round at h
  split_ifs at h with hc
  injection h with h
  rw [← h, ← F.rnd_of_mem 0 F.zero_ok.1]
  exact F.rnd_mono h0

/-- The square of the length. -/
theorem ScaledPt.squaredLength {k m b : ℤ} {x y : PointN (Fl F) n} (h : ScaledPt k m b x y)
    (h1 : low ≤ m + m) (h2 : low ≤ m + m + (k + k)) (h3 : b + b + n ≤ top)
    (h4 : b + b + n + (k + k) ≤ top) :
    ScaledFl (k + k) (m + m) (b + b + n) (Point.squaredLength x : Fl F) (Point.squaredLength y) ∧
      0 ≤ (Point.squaredLength x : Fl F).toReal := by
  have key : ∀ (l : List (Fin n)) (j : ℕ) (u v : Fl F), j + l.length ≤ n →
      ScaledFl (k + k) (m + m) (b + b + j) u v → 0 ≤ u.toReal →
      ScaledFl (k + k) (m + m) (b + b + (j + l.length : ℕ))
        (l.foldl (fun s i => s + x.coords i * x.coords i) u)
        (l.foldl (fun s i => s + y.coords i * y.coords i) v) ∧
      0 ≤ (l.foldl (fun s i => s + x.coords i * x.coords i) u).toReal := by
    intro l
    induction l with
    | nil => intro j u v _ hu hu0; exact ⟨by simpa using hu, hu0⟩
    | cons i l ih =>
      intro j u v hj hu hu0
      rw [List.length_cons] at hj
      have a1 := (h i).mul hF (h i) h1 h2 (by omega) (by omega)
      have a2 := hu.add hF (a1.mono le_rfl (show b + b ≤ b + b + (j : ℤ) by omega)) h1 h2
        (by omega) (by omega)
      have n1 : 0 ≤ (u + x.coords i * x.coords i).toReal := by
        obtain ⟨r, hr, _, e, _, _, _⟩ := id hu
        obtain ⟨s, hs, _, e1, _, _, _⟩ := h i
        obtain ⟨w, hw, _, e2, _, _, _⟩ := id a1
        obtain ⟨z, hz, _, e3, _, _, _⟩ := id a2
        have w0 : 0 ≤ w := round_nonneg (r := s * s) (by rw [← e2, e1, fin_mul]) (mul_self_nonneg s)
        rw [e, toReal_fin] at hu0
        have z0 : 0 ≤ z := round_nonneg (r := r + w) (by rw [← e3, e2, e, fin_add])
          (add_nonneg hu0 w0)
        rwa [e3, toReal_fin]
      have a3 := ih (j + 1) _ _ (by omega) (by
        have : b + b + ((j + 1 : ℕ) : ℤ) = b + b + j + 1 := by push_cast; ring
        rw [this]; exact a2) n1
      rw [List.foldl_cons, List.foldl_cons, List.length_cons,
        show j + (l.length + 1) = j + 1 + l.length by ring]
      exact a3
  have z : ScaledFl (k + k) (m + m) (b + b + (0 : ℕ)) (lit 0 : Fl F) (lit 0) := by
    rw [lit_zero]
    exact ⟨0, F.zero_ok, by rw [mul_zero]; exact F.zero_ok, rfl, fin_congr (by rw [mul_zero]),
      isMultiple_zero _, by rw [abs_zero]; positivity⟩
  have := key (List.finRange n) 0 _ _ (by simp) z (by rw [lit_zero]; exact le_rfl)
  rwa [List.length_finRange, Nat.zero_add] at this

end

/-! ### Evaluation and subdivision -/

/-- Exponents for which nothing underflows or overflows in a curve of degree `d`: the coordinates are
multiples of `2^m` of size at most `2^b`, the parameter is a multiple of `2^h`, and the unit is
changed by the factor `2^k`. -/
structure ScaleRoom (low top : ℤ) (d : ℕ) (k m b h : ℤ) : Prop where
  k_lo : low ≤ k
  k_hi : k ≤ top
  h_le : h ≤ 0
  t_lo : low ≤ d * h
  t_hi : 5 * d ≤ top
  lo : low ≤ m + d * h
  lo' : low ≤ m + d * h + k
  hi : b + 5 * d ≤ top
  hi' : b + 5 * d + k ≤ top

section
variable {p : ℕ} {low top k m b h : ℤ}

/-- One de Casteljau step `a + (b - a) * t`. -/
theorem ScaledPt.lerp (hF : F.Binary p low top) {x y x' y' : PointN (Fl F) n} {t : Fl F}
    (hx : ScaledPt k m b x y) (hx' : ScaledPt k m b x' y') (ht : OnGrid h 2 t) (h0 : h ≤ 0)
    (h1 : low ≤ m + h) (h2 : low ≤ m + h + k) (h3 : b + 5 ≤ top) (h4 : b + 5 + k ≤ top) :
    ScaledPt k (m + h) (b + 5) (x + (x' - x) * t) (y + (y' - y) * t) := by
  have a1 := (hx'.sub hF hx (by omega) (by omega) (by omega) (by omega)).mulParam hF ht
    (by omega) (by omega) (by omega) (by omega)
  have a2 := hx.mono (show m + h ≤ m by omega) (show b ≤ b + 1 + 2 by omega)
  have a3 := a2.add hF a1 (by omega) (by omega) (by omega) (by omega)
  exact a3.mono le_rfl (by omega)

/-- `1 - t`. -/
theorem OnGrid.compl (hF : F.Binary p low top) {t : Fl F} (ht : OnGrid h 2 t) (h0 : h ≤ 0)
    (h1 : low ≤ h) (h2 : 3 ≤ top) : OnGrid h 3 (-t + lit 1) := by
  have a1 : OnGrid h 2 (-t) := ht.same.neg.onGrid
  exact a1.add hF (onGrid_lit1.mono h0 (by norm_num)) h1 (by omega)

/-- One step `a * (1 - t) + b * t`. -/
theorem ScaledPt.lerp' (hF : F.Binary p low top) {x y x' y' : PointN (Fl F) n} {t : Fl F}
    (hx : ScaledPt k m b x y) (hx' : ScaledPt k m b x' y') (ht : OnGrid h 2 t) (h0 : h ≤ 0)
    (hl : low ≤ h) (ht2 : 3 ≤ top)
    (h1 : low ≤ m + h) (h2 : low ≤ m + h + k) (h3 : b + 5 ≤ top) (h4 : b + 5 + k ≤ top) :
    ScaledPt k (m + h) (b + 5) (x * (-t + lit 1) + x' * t) (y * (-t + lit 1) + y' * t) := by
  have a1 := hx.mulParam hF (ht.compl hF h0 hl ht2) h1 h2 (by omega) (by omega)
  have a2 := (hx'.mulParam hF ht h1 h2 (by omega) (by omega)).mono le_rfl
    (show b + 2 ≤ b + 3 by omega)
  have a3 := a1.add hF a2 h1 h2 (by omega) (by omega)
  exact a3.mono le_rfl (by omega)

/-- **C139** (line segments): multiplying the end points by `2^k` multiplies the computed point by
`2^k`, exactly. -/
theorem C139_line (hF : F.Binary p low top) (R : ScaleRoom low top 1 k m b h)
    (l : LineSegment (PointN (Fl F) n)) (hs : PointOnGrid m b l.start)
    (he : PointOnGrid m b l.end_) {t : Fl F} (ht : OnGrid h 2 t) :
    (l.mapPts (timesTwoPow k)).eval t = l.eval t * twoPow F k ∧
    (l.mapPts (timesTwoPow k)).split t
      = ((l.split t).1.mapPts (timesTwoPow k), (l.split t).2.mapPts (timesTwoPow k)) ∧
    (l.mapPts (timesTwoPow k)).derivative = l.derivative * twoPow F k := by
  obtain ⟨r1, r2, r3, r4, r5, r6, r7, r8, r9⟩ := R
  push_cast at *
  have s1 := hs.scaled hF r1 r2 (by omega) (by omega) (by omega) (by omega)
  have s2 := he.scaled hF r1 r2 (by omega) (by omega) (by omega) (by omega)
  have e1 := (s1.lerp hF s2 ht r3 (by omega) (by omega) (by omega) (by omega)).eq_mul hF r1 r2
  have a1 := (s1.sub hF s2 (by omega) (by omega) (by omega) (by omega)).mulParam hF ht
    (by omega) (by omega) (by omega) (by omega)
  have a2 := s1.mono (show m + h ≤ m by omega) (show b ≤ b + 1 + 2 by omega)
  have e2 := (a2.add hF a1 (by omega) (by omega) (by omega) (by omega)).eq_mul hF r1 r2
  have e3 := (s2.sub hF s1 (by omega) (by omega) (by omega) (by omega)).eq_mul hF r1 r2
  refine ⟨e1, ?_, e3⟩
  unfold LineSegment.split LineSegment.mapPts timesTwoPow
  dsimp only
  rw [e2]

/-- All points of the de Casteljau scheme of a quadratic curve. -/
theorem quadratic_scaled (hF : F.Binary p low top) (R : ScaleRoom low top 2 k m b h)
    (q : QuadraticBezier (PointN (Fl F) n)) (hs : PointOnGrid m b q.start)
    (hc : PointOnGrid m b q.ctrl) (he : PointOnGrid m b q.end_) {t : Fl F} (ht : OnGrid h 2 t) :
    ScaledPt k (m + 2 * h) (b + 10) (q.eval t) ((q.mapPts (timesTwoPow k)).eval t) ∧
    ScaledPt k (m + 2 * h) (b + 10) (q.evalCasteljau t)
      ((q.mapPts (timesTwoPow k)).evalCasteljau t) ∧
    ScaledPt k (m + h) (b + 5) (q.start + (q.ctrl - q.start) * t)
      (q.start * twoPow F k + (q.ctrl * twoPow F k - q.start * twoPow F k) * t) ∧
    ScaledPt k (m + h) (b + 5) (q.ctrl + (q.end_ - q.ctrl) * t)
      (q.ctrl * twoPow F k + (q.end_ * twoPow F k - q.ctrl * twoPow F k) * t) := by
  obtain ⟨r1, r2, r3, r4, r5, r6, r7, r8, r9⟩ := R
  push_cast at *
  have s1 := hs.scaled hF r1 r2 (by omega) (by omega) (by omega) (by omega)
  have s2 := hc.scaled hF r1 r2 (by omega) (by omega) (by omega) (by omega)
  have s3 := he.scaled hF r1 r2 (by omega) (by omega) (by omega) (by omega)
  have l1 := s1.lerp hF s2 ht r3 (by omega) (by omega) (by omega) (by omega)
  have l2 := s2.lerp hF s3 ht r3 (by omega) (by omega) (by omega) (by omega)
  have l3 := l1.lerp hF l2 ht r3 (by omega) (by omega) (by omega) (by omega)
  have c := ht.compl hF r3 (by omega) (by omega)
  have cc := c.mul hF c (by omega) (by omega)
  have tt := ht.mul hF ht (by omega) (by omega)
  have b1 := s1.mulParam hF cc (by omega) (by omega) (by omega) (by omega)
  have b2 := ((s2.mulParam hF onGrid_lit2 (by omega) (by omega) (by omega) (by omega)).mulParam hF c
    (by omega) (by omega) (by omega) (by omega)).mulParam hF ht (by omega) (by omega) (by omega)
    (by omega)
  have b3 := s3.mulParam hF tt (by omega) (by omega) (by omega) (by omega)
  have b4 := ((b1.mono (m' := m + 2 * h) (b' := b + 6) (by omega) (by omega)).add hF
    (b2.mono (m' := m + 2 * h) (b' := b + 6) (by omega) (by omega)) (by omega) (by omega)
    (by omega) (by omega)).add hF
    (b3.mono (m' := m + 2 * h) (b' := b + 6 + 1) (by omega) (by omega)) (by omega) (by omega)
    (by omega) (by omega)
  exact ⟨b4.mono le_rfl (by omega), l3.mono (by omega) (by omega), l1, l2⟩

/-- **C139** (quadratic curves): multiplying the control points by `2^k` multiplies the computed
points, the control points of both parts and the derivative by `2^k`, exactly. -/
theorem C139_quadratic (hF : F.Binary p low top) (R : ScaleRoom low top 2 k m b h)
    (q : QuadraticBezier (PointN (Fl F) n)) (hs : PointOnGrid m b q.start)
    (hc : PointOnGrid m b q.ctrl) (he : PointOnGrid m b q.end_) {t : Fl F} (ht : OnGrid h 2 t) :
    (q.mapPts (timesTwoPow k)).eval t = q.eval t * twoPow F k ∧
    (q.mapPts (timesTwoPow k)).evalCasteljau t = q.evalCasteljau t * twoPow F k ∧
    (q.mapPts (timesTwoPow k)).split t
      = ((q.split t).1.mapPts (timesTwoPow k), (q.split t).2.mapPts (timesTwoPow k)) ∧
    (q.mapPts (timesTwoPow k)).derivative = q.derivative.mapPts (timesTwoPow k) := by
  obtain ⟨h1, h2, h3, h4⟩ := quadratic_scaled hF R q hs hc he ht
  obtain ⟨r1, r2, r3, r4, r5, r6, r7, r8, r9⟩ := R
  push_cast at *
  have s1 := hs.scaled hF r1 r2 (by omega) (by omega) (by omega) (by omega)
  have s2 := hc.scaled hF r1 r2 (by omega) (by omega) (by omega) (by omega)
  have s3 := he.scaled hF r1 r2 (by omega) (by omega) (by omega) (by omega)
  have d1 := ((s2.sub hF s1 (by omega) (by omega) (by omega) (by omega)).mulParam hF onGrid_lit2
    (by omega) (by omega) (by omega) (by omega)).eq_mul hF r1 r2
  have d2 := ((s3.sub hF s2 (by omega) (by omega) (by omega) (by omega)).mulParam hF onGrid_lit2
    (by omega) (by omega) (by omega) (by omega)).eq_mul hF r1 r2
  refine ⟨h1.eq_mul hF r1 r2, h2.eq_mul hF r1 r2, ?_, ?_⟩
  · have e2 := h2.eq_mul hF r1 r2
    have e3 := h3.eq_mul hF r1 r2
    have e4 := h4.eq_mul hF r1 r2
    unfold QuadraticBezier.evalCasteljau QuadraticBezier.mapPts timesTwoPow at e2
    unfold QuadraticBezier.split QuadraticBezier.mapPts timesTwoPow
    dsimp only at e2 ⊢
    rw [e2, e3, e4]
  · unfold QuadraticBezier.derivative QuadraticBezier.mapPts LineSegment.mapPts timesTwoPow
    dsimp only
    rw [d1, d2]

/-- The computed points of a cubic curve. -/
theorem cubic_scaled (hF : F.Binary p low top) (R : ScaleRoom low top 3 k m b h)
    (c : CubicBezier (PointN (Fl F) n)) (hs : PointOnGrid m b c.start)
    (hc : PointOnGrid m b c.ctrl1) (hc' : PointOnGrid m b c.ctrl2) (he : PointOnGrid m b c.end_)
    {t : Fl F} (ht : OnGrid h 2 t) :
    ScaledPt k (m + 3 * h) (b + 15) (c.eval t) ((c.mapPts (timesTwoPow k)).eval t) ∧
    ScaledPt k (m + 3 * h) (b + 15) (c.evalCasteljau t)
      ((c.mapPts (timesTwoPow k)).evalCasteljau t) := by
  obtain ⟨r1, r2, r3, r4, r5, r6, r7, r8, r9⟩ := R
  push_cast at *
  have s1 := hs.scaled hF r1 r2 (by omega) (by omega) (by omega) (by omega)
  have s2 := hc.scaled hF r1 r2 (by omega) (by omega) (by omega) (by omega)
  have s3 := hc'.scaled hF r1 r2 (by omega) (by omega) (by omega) (by omega)
  have s4 := he.scaled hF r1 r2 (by omega) (by omega) (by omega) (by omega)
  have l1 := s1.lerp hF s2 ht r3 (by omega) (by omega) (by omega) (by omega)
  have l2 := s2.lerp hF s3 ht r3 (by omega) (by omega) (by omega) (by omega)
  have l3 := s3.lerp hF s4 ht r3 (by omega) (by omega) (by omega) (by omega)
  have l4 := l1.lerp hF l2 ht r3 (by omega) (by omega) (by omega) (by omega)
  have l5 := l2.lerp hF l3 ht r3 (by omega) (by omega) (by omega) (by omega)
  have l6 := l4.lerp hF l5 ht r3 (by omega) (by omega) (by omega) (by omega)
  have u := ht.compl hF r3 (by omega) (by omega)
  have w1 := (u.mul hF u (by omega) (by omega)).mul hF u (by omega) (by omega)
  have w2 := (((ht.mul hF u (by omega) (by omega)).mul hF u (by omega) (by omega))).mul hF
    onGrid_lit3 (by omega) (by omega)
  have w3 := (((ht.mul hF ht (by omega) (by omega)).mul hF u (by omega) (by omega))).mul hF
    onGrid_lit3 (by omega) (by omega)
  have w4 := (ht.mul hF ht (by omega) (by omega)).mul hF ht (by omega) (by omega)
  have b1 := s1.mulParam hF w1 (by omega) (by omega) (by omega) (by omega)
  have b2 := s2.mulParam hF w2 (by omega) (by omega) (by omega) (by omega)
  have b3 := s3.mulParam hF w3 (by omega) (by omega) (by omega) (by omega)
  have b4 := s4.mulParam hF w4 (by omega) (by omega) (by omega) (by omega)
  have b5 := (((b1.mono (m' := m + 3 * h) (b' := b + 10) (by omega) (by omega)).add hF
    (b2.mono (m' := m + 3 * h) (b' := b + 10) (by omega) (by omega)) (by omega) (by omega)
    (by omega) (by omega)).add hF
    (b3.mono (m' := m + 3 * h) (b' := b + 10 + 1) (by omega) (by omega)) (by omega) (by omega)
    (by omega) (by omega)).add hF
    (b4.mono (m' := m + 3 * h) (b' := b + 10 + 1 + 1) (by omega) (by omega)) (by omega) (by omega)
    (by omega) (by omega)
  exact ⟨b5.mono le_rfl (by omega), l6.mono (by omega) (by omega)⟩

/-- **C139** (cubic curves): the same. -/
theorem C139_cubic (hF : F.Binary p low top) (R : ScaleRoom low top 3 k m b h)
    (c : CubicBezier (PointN (Fl F) n)) (hs : PointOnGrid m b c.start)
    (hc : PointOnGrid m b c.ctrl1) (hc' : PointOnGrid m b c.ctrl2) (he : PointOnGrid m b c.end_)
    {t : Fl F} (ht : OnGrid h 2 t) :
    (c.mapPts (timesTwoPow k)).eval t = c.eval t * twoPow F k ∧
    (c.mapPts (timesTwoPow k)).evalCasteljau t = c.evalCasteljau t * twoPow F k ∧
    (c.mapPts (timesTwoPow k)).split t
      = ((c.split t).1.mapPts (timesTwoPow k), (c.split t).2.mapPts (timesTwoPow k)) ∧
    (c.mapPts (timesTwoPow k)).derivative = c.derivative.mapPts (timesTwoPow k) := by
  obtain ⟨h1, h2⟩ := cubic_scaled hF R c hs hc hc' he ht
  obtain ⟨r1, r2, r3, r4, r5, r6, r7, r8, r9⟩ := R
  push_cast at *
  have s1 := hs.scaled hF r1 r2 (by omega) (by omega) (by omega) (by omega)
  have s2 := hc.scaled hF r1 r2 (by omega) (by omega) (by omega) (by omega)
  have s3 := hc'.scaled hF r1 r2 (by omega) (by omega) (by omega) (by omega)
  have s4 := he.scaled hF r1 r2 (by omega) (by omega) (by omega) (by omega)
  have l1 := s1.lerp hF s2 ht r3 (by omega) (by omega) (by omega) (by omega)
  have l2 := s2.lerp hF s3 ht r3 (by omega) (by omega) (by omega) (by omega)
  have l3 := s3.lerp hF s4 ht r3 (by omega) (by omega) (by omega) (by omega)
  have l4 := l1.lerp hF l2 ht r3 (by omega) (by omega) (by omega) (by omega)
  have l5 := l2.lerp hF l3 ht r3 (by omega) (by omega) (by omega) (by omega)
  have d1 := ((s2.sub hF s1 (by omega) (by omega) (by omega) (by omega)).mulParam hF onGrid_lit3
    (by omega) (by omega) (by omega) (by omega)).eq_mul hF r1 r2
  have d2 := ((s3.sub hF s2 (by omega) (by omega) (by omega) (by omega)).mulParam hF onGrid_lit3
    (by omega) (by omega) (by omega) (by omega)).eq_mul hF r1 r2
  have d3 := ((s4.sub hF s3 (by omega) (by omega) (by omega) (by omega)).mulParam hF onGrid_lit3
    (by omega) (by omega) (by omega) (by omega)).eq_mul hF r1 r2
  refine ⟨h1.eq_mul hF r1 r2, h2.eq_mul hF r1 r2, ?_, ?_⟩
  · have e2 := h2.eq_mul hF r1 r2
    have e3 := l1.eq_mul hF r1 r2
    have e4 := l3.eq_mul hF r1 r2
    have e5 := l4.eq_mul hF r1 r2
    have e6 := l5.eq_mul hF r1 r2
    unfold CubicBezier.evalCasteljau CubicBezier.mapPts timesTwoPow at e2
    unfold CubicBezier.split CubicBezier.mapPts timesTwoPow
    dsimp only at e2 ⊢
    rw [e2, e5, e6, e3, e4]
  · unfold CubicBezier.derivative CubicBezier.mapPts QuadraticBezier.mapPts timesTwoPow
    dsimp only
    rw [d1, d2, d3]

end

/-! ### Curves of any degree -/

section
variable {p : ℕ} {low top k m b h : ℤ}

/-- The de Casteljau triangle. -/
theorem cas_scaled (hF : F.Binary p low top) {d : ℕ} (R : ScaleRoom low top d k m b h)
    {x y : ℕ → PointN (Fl F) n} {t : Fl F} (hx : ∀ j, ScaledPt k m b (x j) (y j))
    (ht : OnGrid h 2 t) (r : ℕ) (hr : r ≤ d) (j : ℕ) :
    ScaledPt k (m + r * h) (b + 5 * r) (cas x t r j) (cas y t r j) := by
  induction r generalizing j with
  | zero => simpa [cas] using hx j
  | succ r ih =>
    obtain ⟨r1, r2, r3, r4, r5, r6, r7, r8, r9⟩ := R
    have hd : (d : ℤ) * h ≤ ((r + 1 : ℕ) : ℤ) * h := by
      apply mul_le_mul_of_nonpos_right _ r3
      exact_mod_cast hr
    have hd1 : ((r + 1 : ℕ) : ℤ) * h ≤ h := by
      have : (0 : ℤ) ≤ (r : ℤ) := by omega
      have := mul_nonpos_of_nonneg_of_nonpos this r3
      push_cast
      linarith
    have hr' : ((r + 1 : ℕ) : ℤ) ≤ d := by exact_mod_cast hr
    have e1 : m + ((r + 1 : ℕ) : ℤ) * h = m + r * h + h := by push_cast; ring
    have e2 : b + 5 * ((r + 1 : ℕ) : ℤ) = b + 5 * r + 5 := by push_cast; ring
    rw [e1, e2]
    exact (ih (by omega) j).lerp' hF (ih (by omega) (j + 1)) ht r3 (by omega) (by omega)
      (by omega) (by omega) (by omega) (by omega)

theorem extend_scaled (hF : F.Binary p low top) {d : ℕ} (R : ScaleRoom low top d k m b h) {N : ℕ}
    (c : Bezier (PointN (Fl F) n) N) (hc : ∀ i, PointOnGrid m b (c.control_points i)) (j : ℕ) :
    ScaledPt k m b (extend c.control_points j)
      (extend (c.mapPts (timesTwoPow k)).control_points j) := by
  obtain ⟨r1, r2, r3, r4, r5, r6, r7, r8, r9⟩ := R
  have hd : (d : ℤ) * h ≤ 0 := mul_nonpos_of_nonneg_of_nonpos (by omega) r3
  unfold extend
  split_ifs with hj
  · exact (hc _).scaled hF r1 r2 (by omega) (by omega) (by omega) (by omega)
  · intro i
    show ScaledFl k m b (lit 0) (lit 0)
    rw [lit_zero]
    exact ⟨0, F.zero_ok, by rw [mul_zero]; exact F.zero_ok, rfl, fin_congr (by rw [mul_zero]),
      isMultiple_zero _, by rw [abs_zero]; positivity⟩

/-- The computed points of a curve of any degree. -/
theorem bezier_scaled {N : ℕ} (hN : 1 ≤ N) (hF : F.Binary p low top)
    (R : ScaleRoom low top (N - 1) k m b h) (c : Bezier (PointN (Fl F) n) N)
    (hc : ∀ i, PointOnGrid m b (c.control_points i)) {t : Fl F} (ht : OnGrid h 2 t) :
    ∃ x y, c.eval t = some x ∧ (c.mapPts (timesTwoPow k)).eval t = some y ∧
      ScaledPt k (m + (N - 1 : ℕ) * h) (b + 5 * (N - 1 : ℕ)) x y :=
  ⟨_, _, bezier_eval_cas c hN t, bezier_eval_cas _ hN t,
    cas_scaled hF R (extend_scaled hF R c hc) ht _ le_rfl _⟩

/-- **C139** (curves of any degree): multiplying the control points by `2^k` multiplies the computed
point and the control points of both parts by `2^k`, exactly. -/
theorem C139_bezier {N : ℕ} (hN : 1 ≤ N) (hF : F.Binary p low top)
    (R : ScaleRoom low top (N - 1) k m b h) (c : Bezier (PointN (Fl F) n) N)
    (hc : ∀ i, PointOnGrid m b (c.control_points i)) {t : Fl F} (ht : OnGrid h 2 t) :
    (c.mapPts (timesTwoPow k)).eval t = (c.eval t).map (timesTwoPow k) ∧
    (c.mapPts (timesTwoPow k)).split t
      = (c.split t).map fun s => (s.1.mapPts (timesTwoPow k), s.2.mapPts (timesTwoPow k)) := by
  have key := cas_scaled hF R (extend_scaled hF R c hc) ht
  constructor
  · rw [bezier_eval_cas _ hN, bezier_eval_cas _ hN]
    exact congrArg some ((key _ le_rfl 0).eq_mul hF R.k_lo R.k_hi)
  · rw [bezier_split_cas, bezier_split_cas]
    show some _ = some _
    congr 2
    · unfold Bezier.mapPts
      congr 1
      funext i
      exact (key i.val (by omega) 0).eq_mul hF R.k_lo R.k_hi
    · unfold Bezier.mapPts
      congr 1
      funext i
      exact (key (N - 1 - i.val) (by omega) i.val).eq_mul hF R.k_lo R.k_hi

/-! ### Distances and lengths -/

/-- Two loops that run in step. -/
theorem forRange_rel {σ τ : Type} (I : ℕ → σ → τ → Prop) {lo hi : ℕ} {s : σ} {s' : τ}
    {body : ℕ → σ → Option σ} {body' : ℕ → τ → Option τ} (hle : lo ≤ hi) (h0 : I lo s s')
    (hstep : ∀ i s s', lo ≤ i → i < hi → I i s s' →
      ∃ u v, body i s = some u ∧ body' i s' = some v ∧ I (i + 1) u v) :
    ∃ u v, forRange lo hi s body = some u ∧ forRange lo hi s' body' = some v ∧ I hi u v := by
  induction hi with
  | zero =>
    have : lo = 0 := by omega
    subst this
    exact ⟨s, s', forRange_empty le_rfl _ _, forRange_empty le_rfl _ _, h0⟩
  | succ hi ih =>
    rcases Nat.eq_or_lt_of_le hle with h | h
    · subst h
      exact ⟨s, s', forRange_empty le_rfl _ _, forRange_empty le_rfl _ _, h0⟩
    · have hle' : lo ≤ hi := by omega
      obtain ⟨u1, v1, e1, f1, i1⟩ := ih hle' (fun i s s' h1 h2 => hstep i s s' h1 (by omega))
      obtain ⟨u2, v2, e2, f2, i2⟩ := hstep hi u1 v1 hle' (by omega) i1
      refine ⟨u2, v2, ?_, ?_, i2⟩
      · rw [forRange_succ hle', e1]
        exact e2
      · rw [forRange_succ hle', f1]
        exact f2

theorem onGrid_round (hF : F.Binary p low top) {r : ℝ} (hm : IsMultiple m r) (hb : |r| ≤ 2 ^ b)
    (h1 : low ≤ m) (h3 : b ≤ top) : OnGrid m b (F.round r) :=
  (ScaledFl.round hF (k := 0) (r' := r) hm hb h1 (by omega) h3 (by omega) (by simp)).onGrid

/-- The evaluation method and the one of the scaled curve, for the parameters on a grid. -/
def EvalsScaled (k m b h : ℤ) (ev ev' : Fl F → Option (PointN (Fl F) n)) : Prop :=
  ∀ t, OnGrid h 2 t → ∃ x y, ev t = some x ∧ ev' t = some y ∧ ScaledPt k m b x y

/-- The state of the search for the nearest point. -/
def SearchScaled (k m c : ℤ) (s s' : Fl F × Fl F) : Prop :=
  s'.1 = s.1 ∧ OnGrid (-12) 0 s.1 ∧ ScaledFl (k + k) (m + m) c s.2 s'.2 ∧ 0 ≤ s.2.toReal

/-- One comparison of the search. -/
theorem search_step (hF : F.Binary p low top) {x y q q' : PointN (Fl F) n} {s s' : Fl F × Fl F}
    {t : Fl F} (hs : SearchScaled k m (b + 1 + (b + 1) + n) s s') (hx : ScaledPt k m b x y)
    (hq : ScaledPt k m b q q') (ht : OnGrid (-12) 0 t)
    (h1 : low ≤ m + m) (h1' : low ≤ m) (h2 : low ≤ m + m + (k + k)) (h2' : low ≤ m + k)
    (h3 : b + 1 + (b + 1) + n ≤ top) (h4 : b + 1 + (b + 1) + n + (k + k) ≤ top)
    (h3' : b + 1 ≤ top) (h4' : b + 1 + k ≤ top) :
    ∃ u v, (if Scalar.lt (Point.squaredLength (x - q)) s.2 then
          pure (t, Point.squaredLength (x - q)) else pure s : Option (Fl F × Fl F)) = some u ∧
      (if Scalar.lt (Point.squaredLength (y - q')) s'.2 then
          pure (t, Point.squaredLength (y - q')) else pure s' : Option (Fl F × Fl F)) = some v ∧
      SearchScaled k m (b + 1 + (b + 1) + n) u v := by
  obtain ⟨s1, s2, s3, s4⟩ := id hs
  obtain ⟨l1, l2⟩ := (hx.sub hF hq h1' h2' h3' h4').squaredLength hF h1 h2 h3 h4
  rw [l1.lt s3]
  by_cases hc : Scalar.lt (Point.squaredLength (x - q)) s.2 = true
  · rw [if_pos hc, if_pos hc]
    exact ⟨_, _, rfl, rfl, rfl, ht, l1, l2⟩
  · rw [if_neg hc, if_neg hc]
    exact ⟨_, _, rfl, rfl, hs⟩

theorem ofUsize_eq (hF : F.Binary p low top) (h0 : low ≤ 0) {i w : ℕ} (hi : i ≤ 2 ^ w)
    (hw : w ≤ p) (hw' : (w : ℤ) ≤ top) :
    ∃ hh, (Scalar.ofUsize i : Fl F) = fin (i : ℝ) hh := by
  have h1 : (i : ℝ) ∈ F.grid := by
    have := hF.mem i 0 (by
      rw [abs_of_nonneg (by omega)]
      have : (2 : ℕ) ^ w ≤ 2 ^ p := Nat.pow_le_pow_right (by norm_num) hw
      exact_mod_cast hi.trans this) h0
    simpa using this
  have h2 : |(i : ℝ)| ≤ F.max := by
    rw [abs_of_nonneg (by positivity)]
    have : (i : ℝ) ≤ (2 : ℝ) ^ (w : ℤ) := by
      rw [zpow_natCast]
      exact_mod_cast hi
    exact this.trans ((two_zpow_mono hw').trans hF.top_le)
  exact ⟨⟨h1, h2⟩, F.round_of_mem ⟨h1, h2⟩⟩

/-- The samples `i / 2^w` of the two passes. -/
theorem sample_onGrid (hF : F.Binary p low top) {i w : ℕ} (hi : i < 64) (hw6 : 6 ≤ w)
    (hw : w ≤ p) (hl : low ≤ -w) (ht : (w : ℤ) ≤ top) :
    OnGrid (-w) (6 - w) (Scalar.ofUsize i * lit 1 / Scalar.ofUsize (2 ^ w) : Fl F) := by
  obtain ⟨h1, e1⟩ := ofUsize_eq hF (by omega) (show i ≤ 2 ^ 6 by omega) (by omega)
    (by push_cast; omega)
  obtain ⟨h2, e2⟩ := ofUsize_eq hF (by omega) (le_refl (2 ^ w)) hw ht
  rw [e1, e2, lit_one, fin_mul, mul_one, F.round_of_mem h1, fin_div (by positivity)]
  refine onGrid_round hF ⟨i, ?_⟩ ?_ hl (by omega)
  · rw [zpow_neg, zpow_natCast]
    push_cast
    rfl
  · rw [abs_of_nonneg (by positivity), zpow_sub₀ (by norm_num), zpow_natCast]
    push_cast
    gcongr
    have : (i : ℝ) ≤ (64 : ℕ) := by exact_mod_cast hi.le
    norm_num at this ⊢
    exact this

/-- `distance_to_point` of a curve: the whole search runs in step. -/
theorem search_scaled (hF : F.Binary p low top) {ev ev' : Fl F → Option (PointN (Fl F) n)}
    {first first' q q' : PointN (Fl F) n} (hev : EvalsScaled k m b (-12) ev ev')
    (hf : ScaledPt k m b first first') (hq : ScaledPt k m b q q') (hp : 12 ≤ p)
    (hlow : low ≤ -12) (htop : 12 ≤ top)
    (h1 : low ≤ m + m) (h1' : low ≤ m) (h2 : low ≤ m + m + (k + k)) (h2' : low ≤ m + k)
    (h3 : b + 1 + (b + 1) + n ≤ top) (h4 : b + 1 + (b + 1) + n + (k + k) ≤ top)
    (h3' : b + 1 + n ≤ top) (h4' : b + 1 + n + k ≤ top) (h5 : low ≤ b) :
    ∃ d e, searchDistance ev first q = some d ∧ searchDistance ev' first' q' = some e ∧
      ScaledFl k (m - p) (b + 1 + n) d e := by
  have half : OnGrid (-12) 0 (lit (1 / 2) : Fl F) := by
    refine onGrid_round hF ⟨2 ^ 11, ?_⟩ ?_ hlow (by omega)
    · norm_num
    · norm_num [abs_of_pos]
  have init : SearchScaled k m (b + 1 + (b + 1) + n)
      ((lit (1 / 2), Point.squaredLength (q - first)) : Fl F × Fl F)
      (lit (1 / 2), Point.squaredLength (q' - first')) := by
    obtain ⟨l1, l2⟩ := (hq.sub hF hf h1' h2' (by omega) (by omega)).squaredLength hF h1 h2 h3 h4
    exact ⟨rfl, half, l1, l2⟩
  obtain ⟨u1, v1, e1, f1, i1⟩ := forRange_rel
    (fun _ s s' => SearchScaled k m (b + 1 + (b + 1) + n) s s')
    (lo := 0) (hi := nstepsDistance)
    (body := fun i s => do
      let t := Scalar.ofUsize i * lit 1 / Scalar.ofUsize nstepsDistance
      let candidate ← ev t
      if Scalar.lt (Point.squaredLength (candidate - q)) s.2 then
        pure (t, Point.squaredLength (candidate - q))
      else pure s)
    (body' := fun i s => do
      let t := Scalar.ofUsize i * lit 1 / Scalar.ofUsize nstepsDistance
      let candidate ← ev' t
      if Scalar.lt (Point.squaredLength (candidate - q')) s.2 then
        pure (t, Point.squaredLength (candidate - q'))
      else pure s) (Nat.zero_le _) init (by
      intro i s s' _ hi hs
      have ht : OnGrid (-6) 0
          (Scalar.ofUsize i * lit 1 / Scalar.ofUsize nstepsDistance : Fl F) :=
        sample_onGrid hF (w := 6) hi le_rfl (by omega) (by push_cast; omega) (by push_cast; omega)
      obtain ⟨x, y, ex, ey, sxy⟩ := hev _ (ht.mono (by norm_num) (by norm_num))
      dsimp only
      rw [ex, ey]
      exact search_step hF hs sxy hq (ht.mono (by norm_num) le_rfl) h1 h1' h2 h2' h3 h4 (by omega)
        (by omega))
  obtain ⟨u2, v2, e2, f2, i2⟩ := forRange_rel
    (fun _ s s' => SearchScaled k m (b + 1 + (b + 1) + n) s s')
    (lo := 0) (hi := nstepsDistance)
    (body := fun i s => do
      let t := Scalar.ofUsize i * lit 1 / Scalar.ofUsize (nstepsDistance * nstepsDistance)
      let candidate ← ev (s.1 + t - t * (Scalar.ofUsize nstepsDistance / lit 2))
      if Scalar.lt (Point.squaredLength (candidate - q)) s.2 then
        pure (t, Point.squaredLength (candidate - q))
      else pure s)
    (body' := fun i s => do
      let t := Scalar.ofUsize i * lit 1 / Scalar.ofUsize (nstepsDistance * nstepsDistance)
      let candidate ← ev' (s.1 + t - t * (Scalar.ofUsize nstepsDistance / lit 2))
      if Scalar.lt (Point.squaredLength (candidate - q')) s.2 then
        pure (t, Point.squaredLength (candidate - q'))
      else pure s) (Nat.zero_le _) i1 (by
      intro i s s' _ hi hs
      have ht : OnGrid (-12) (-6)
          (Scalar.ofUsize i * lit 1 / Scalar.ofUsize (nstepsDistance * nstepsDistance) : Fl F) :=
        sample_onGrid hF (w := 12) hi (by norm_num) (by omega) (by push_cast; omega)
          (by push_cast; omega)
      have h32 : OnGrid 0 5 (Scalar.ofUsize nstepsDistance / lit 2 : Fl F) := by
        obtain ⟨ok, e64⟩ := ofUsize_eq hF (by omega) (show nstepsDistance ≤ 2 ^ 6 from le_rfl)
          (by omega) (by push_cast; omega)
        have e2 : (lit 2 : Fl F) = fin ((2 : ℤ) : ℝ) (F.int_ok 2 (by norm_num)) := by
          exact_mod_cast lit_int (F := F) 2 (by norm_num)
        rw [e64, e2, fin_div (by norm_num)]
        refine onGrid_round hF ⟨32, ?_⟩ ?_ (by omega) (by omega)
        · norm_num [nstepsDistance]
        · norm_num [nstepsDistance, abs_of_pos]
      have a1 := hs.2.1.add hF (ht.mono le_rfl (show (-6 : ℤ) ≤ 0 by norm_num)) hlow (by omega)
      have a2 := ht.mul hF h32 (by omega) (by omega)
      have a3 : OnGrid (-12) 2 (s.1 + Scalar.ofUsize i * lit 1
          / Scalar.ofUsize (nstepsDistance * nstepsDistance) - Scalar.ofUsize i * lit 1
          / Scalar.ofUsize (nstepsDistance * nstepsDistance)
            * (Scalar.ofUsize nstepsDistance / lit 2) : Fl F) :=
        a1.add hF (a2.same.neg.onGrid.mono (by norm_num) (by norm_num)) hlow (by omega)
      obtain ⟨x, y, ex, ey, sxy⟩ := hev _ a3
      dsimp only
      rw [hs.1, ex, ey]
      exact search_step hF hs sxy hq (ht.mono le_rfl (by norm_num)) h1 h1' h2 h2' h3 h4 (by omega)
        (by omega))
  refine ⟨Scalar.sqrt u2.2, Scalar.sqrt v2.2, ?_, ?_, ?_⟩
  · unfold searchDistance coarsePass finePass
    dsimp only
    rw [e1, Option.bind_eq_bind, Option.bind_some, e2]
    rfl
  · unfold searchDistance coarsePass finePass
    dsimp only
    rw [f1, Option.bind_eq_bind, Option.bind_some, f2]
    rfl
  · obtain ⟨_, _, l1, l2⟩ := i2
    exact ScaledFl.sqrt hF (l1.mono (b' := b + 1 + n + (b + 1 + n)) le_rfl (by omega)) l2 h1' h2'
      (by omega) (by omega) (by omega)

theorem abs_round_le {x y : ℝ} (hy : y ∈ F.grid) (h : |x| ≤ y) : |(F.round x).toReal| ≤ y := by
  unfold FloatFormat.round
  split_ifs with hc
  · exact F.abs_rnd_le hy h
  · show |(0 : ℝ)| ≤ y
    rw [abs_zero]
    exact (abs_nonneg _).trans h

/-- The samples `i / N` of `arclen`. -/
theorem quotient_onGrid (hF : F.Binary p low top) {i N w : ℕ} (hi : 1 ≤ i) (hiN : i ≤ N)
    (hN : N ≤ 2 ^ w) (hw : w ≤ p) (hl : low ≤ -(w + p)) (ht : (w : ℤ) ≤ top) :
    OnGrid (-(w + p)) 0 (Scalar.ofUsize i / Scalar.ofUsize N : Fl F) := by
  obtain ⟨h1, e1⟩ := ofUsize_eq hF (by omega) (hiN.trans hN) hw ht
  obtain ⟨h2, e2⟩ := ofUsize_eq hF (by omega) hN hw ht
  have N0 : (0 : ℝ) < N := by exact_mod_cast (by omega : 0 < N)
  rw [e1, e2, fin_div N0.ne']
  have q1 : (2 : ℝ) ^ (-(w : ℤ)) ≤ (i : ℝ) / N := by
    rw [zpow_neg, zpow_natCast, le_div_iff₀ N0]
    have a1 : (N : ℝ) ≤ 2 ^ w := by exact_mod_cast hN
    have a2 : (1 : ℝ) ≤ i := by exact_mod_cast hi
    have a3 : (0 : ℝ) < 2 ^ w := by positivity
    calc ((2 : ℝ) ^ w)⁻¹ * N ≤ (2 ^ w)⁻¹ * 2 ^ w := by gcongr
      _ = 1 := inv_mul_cancel₀ a3.ne'
      _ ≤ i := a2
  have q2 : (i : ℝ) / N ≤ 1 := by
    rw [div_le_one N0]
    exact_mod_cast hiN
  have q0 : 0 ≤ (i : ℝ) / N := by positivity
  have l1 : |F.rnd ((i : ℝ) / N)| ≤ 1 := F.abs_rnd_le F.one_ok.1 (by rwa [abs_of_nonneg q0])
  have l2 : |F.rnd ((i : ℝ) / N)| ≤ F.max := l1.trans (by linarith [F.max_ge])
  have l0 : (2 : ℝ) ^ (-(w : ℤ)) ≤ F.rnd ((i : ℝ) / N) := by
    have := F.rnd_mono q1
    rwa [F.rnd_of_mem _ (hF.two_mem (by omega))] at this
  rw [F.round_of_rnd_le l2]
  refine ⟨trivial, ?_, by simpa using l1⟩
  have := hF.coarse (-(w : ℤ)) _ (F.rnd_mem _) (l0.trans (le_abs_self _))
  rwa [show -(w : ℤ) - p = -(w + p) by ring] at this

/-- `arclen`: the whole sum runs in step. -/
theorem arclen_scaled (hF : F.Binary p low top) {ev ev' : Fl F → Option (PointN (Fl F) n)}
    {N w : ℕ} (hN : N ≤ 2 ^ w) (hw : w ≤ p) (hev : EvalsScaled k m b (-(w + p)) ev ev')
    (hlow : low ≤ -(w + p)) (htop : (w : ℤ) ≤ top) (htop1 : 1 ≤ top)
    (h1 : low ≤ m + m) (h2 : low ≤ m + m + (k + k)) (h1' : low ≤ m - p) (h2' : low ≤ m - p + k)
    (h3 : b + 1 + (b + 1) + n ≤ top) (h4 : b + 1 + (b + 1) + n + (k + k) ≤ top)
    (h3' : b + 1 + n + w ≤ top) (h4' : b + 1 + n + w + k ≤ top) (h5 : low ≤ b) :
    ∃ d e, sampledArclen ev N = some d ∧ sampledArclen ev' N = some e ∧
      ScaledFl k (m - p) (b + 1 + n + w) d e := by
  have zero : ScaledFl k (m - p) (b + 1 + n + w) (lit 0 : Fl F) (lit 0) := by
    rw [lit_zero]
    exact ⟨0, F.zero_ok, by rw [mul_zero]; exact F.zero_ok, rfl, fin_congr (by rw [mul_zero]),
      isMultiple_zero _, by rw [abs_zero]; positivity⟩
  rcases Nat.lt_or_ge N 1 with hN1 | hN1
  · refine ⟨lit 0, lit 0, ?_, ?_, zero⟩ <;>
    · unfold sampledArclen
      exact forRange_empty (by omega) _ _
  obtain ⟨u, v, eu, ev1, iu, _⟩ := forRange_rel
    (fun i s s' => ScaledFl k (m - p) (b + 1 + n + w) s s' ∧
      |s.toReal| ≤ ((i - 1 : ℕ) : ℝ) * 2 ^ (b + 1 + n))
    (lo := 1) (hi := N)
    (body := fun i arclen => do
      let t := Scalar.ofUsize i * lit 1 / Scalar.ofUsize N
      let p1 ← ev t
      let p2 ← ev (t + lit 1 / Scalar.ofUsize N)
      pure (arclen + Scalar.sqrt (Point.squaredLength (p1 - p2))))
    (body' := fun i arclen => do
      let t := Scalar.ofUsize i * lit 1 / Scalar.ofUsize N
      let p1 ← ev' t
      let p2 ← ev' (t + lit 1 / Scalar.ofUsize N)
      pure (arclen + Scalar.sqrt (Point.squaredLength (p1 - p2))))
    hN1 ⟨zero, by rw [lit_zero]; simp⟩ (by
      intro i s s' hi hiN ⟨hs, hsb⟩
      have o1 : (Scalar.ofUsize i * lit 1 : Fl F) = Scalar.ofUsize i := by
        obtain ⟨h1, e1⟩ := ofUsize_eq hF (by omega) (hiN.le.trans hN) hw htop
        rw [e1, lit_one, fin_mul, mul_one, F.round_of_mem h1]
      have o2 : (lit 1 : Fl F) = Scalar.ofUsize 1 := by
        show F.round _ = F.round _
        norm_num
      have t1 := quotient_onGrid hF hi hiN.le hN hw hlow htop
      have t2 := quotient_onGrid hF le_rfl hN1 hN hw hlow htop
      have t3 := t1.add hF t2 hlow (by omega)
      obtain ⟨x1, y1, ex1, ey1, s1⟩ := hev _ (t1.mono le_rfl (by norm_num))
      obtain ⟨x2, y2, ex2, ey2, s2⟩ := hev _ (t3.mono le_rfl (by norm_num))
      obtain ⟨l1, l2⟩ := (s1.sub hF s2 (by omega) (by omega) (by omega) (by omega)).squaredLength
        hF h1 h2 h3 h4
      have r := ScaledFl.sqrt hF (l1.mono (b' := b + 1 + n + (b + 1 + n)) le_rfl (by omega)) l2
        (by omega) (by omega) (by omega) (by omega) (by omega)
      dsimp only
      rw [o1, o2, ex1, ey1]
      dsimp only [Option.bind_eq_bind, Option.bind_some]
      rw [ex2, ey2]
      refine ⟨_, _, rfl, rfl, ?_⟩
      obtain ⟨a, ha, ha', rfl, rfl, ma, _⟩ := hs
      obtain ⟨z, hz, hz', ez, ez', mz, bz⟩ := r
      rw [ez, ez', fin_add, fin_add]
      have i1 : ((i - 1 : ℕ) : ℝ) = (i : ℝ) - 1 := by
        rw [Nat.cast_sub hi]
        norm_num
      have bound : |a + z| ≤ (i : ℝ) * 2 ^ (b + 1 + n) := by
        rw [toReal_fin, i1] at hsb
        have := abs_add_le a z
        linarith
      have iw : (i : ℝ) ≤ 2 ^ w := by exact_mod_cast hiN.le.trans hN
      constructor
      · refine ScaledFl.round hF (ma.add mz) (bound.trans ?_) h1' h2' h3' h4' (by ring)
        rw [zpow_add₀ (by norm_num) (b + 1 + n), zpow_natCast, mul_comm]
        gcongr
      · rw [Nat.add_sub_cancel]
        refine abs_round_le ?_ bound
        refine hF.mem i (b + 1 + n) ?_ (by omega)
        rw [abs_of_nonneg (by omega)]
        have : (2 : ℕ) ^ w ≤ 2 ^ p := Nat.pow_le_pow_right (by norm_num) hw
        exact_mod_cast (hiN.le.trans hN).trans this)
  exact ⟨u, v, eu, ev1, iu⟩

/-- Exponents for which nothing underflows or overflows in the computation of lengths and
distances in `n` dimensions. -/
structure LengthRoom (p : ℕ) (low top : ℤ) (n d w : ℕ) (k m b h : ℤ) : Prop
    extends ScaleRoom low top d k m b h where
  precision : 12 ≤ p
  steps : w ≤ p
  param : h ≤ -(w + p)
  low_le : low ≤ -(w + p)
  top_ge : 12 ≤ top ∧ (w : ℤ) ≤ top
  square_lo : low ≤ 2 * (m + d * h)
  square_lo' : low ≤ 2 * (m + d * h) + 2 * k
  sum_lo : low ≤ m + d * h - p
  sum_lo' : low ≤ m + d * h - p + k
  square_hi : 2 * (b + 5 * d + 1) + n ≤ top
  square_hi' : 2 * (b + 5 * d + 1) + n + 2 * k ≤ top
  sum_hi : b + 5 * d + 1 + n + w ≤ top
  sum_hi' : b + 5 * d + 1 + n + w + k ≤ top
  size : low ≤ b

/-- The two computations for a curve given by its evaluation. -/
theorem lengths_scaled (hF : F.Binary p low top) {d w : ℕ} (R : LengthRoom p low top n d w k m b h)
    {ev ev' : Fl F → Option (PointN (Fl F) n)} {N : ℕ} (hN : N ≤ 2 ^ w)
    (hev : EvalsScaled k (m + d * h) (b + 5 * d) h ev ev') :
    ∃ x, sampledArclen ev N = some x ∧ sampledArclen ev' N = some (x * twoPow F k) := by
  have hev' : EvalsScaled k (m + d * h) (b + 5 * d) (-(w + p)) ev ev' :=
    fun t ht => hev t (ht.mono R.param le_rfl)
  obtain ⟨x, y, e1, e2, s⟩ := arclen_scaled hF hN R.steps hev' R.low_le R.top_ge.2
    (by linarith [R.top_ge.1]) (by linarith [R.square_lo]) (by linarith [R.square_lo']) R.sum_lo
    R.sum_lo' (by linarith [R.square_hi]) (by linarith [R.square_hi']) R.sum_hi R.sum_hi'
    (by linarith [R.size])
  exact ⟨x, e1, by rw [e2, s.eq_mul hF R.k_lo R.k_hi]⟩

theorem distances_scaled (hF : F.Binary p low top) {d w : ℕ}
    (R : LengthRoom p low top n d w k m b h) {ev ev' : Fl F → Option (PointN (Fl F) n)}
    {first q : PointN (Fl F) n} (hf : PointOnGrid m b first) (hq : PointOnGrid m b q)
    (hev : EvalsScaled k (m + d * h) (b + 5 * d) h ev ev') :
    ∃ x, searchDistance ev first q = some x ∧
      searchDistance ev' (timesTwoPow k first) (timesTwoPow k q) = some (x * twoPow F k) := by
  have hp := R.precision
  have hev' : EvalsScaled k (m + d * h) (b + 5 * d) (-12) ev ev' :=
    fun t ht => hev t (ht.mono (R.param.trans (by omega)) le_rfl)
  have dh : (d : ℤ) * h ≤ 0 := mul_nonpos_of_nonneg_of_nonpos (by omega) R.h_le
  have d0 : (0 : ℤ) ≤ d := by omega
  have l1 := R.lo
  have l2 := R.lo'
  have l3 := R.hi
  have l4 := R.hi'
  have sc : ∀ {x : PointN (Fl F) n}, PointOnGrid m b x →
      ScaledPt k (m + d * h) (b + 5 * d) x (timesTwoPow k x) := fun hx =>
    (hx.scaled hF R.k_lo R.k_hi (by linarith) (by linarith) (by linarith) (by linarith)).mono
      (by linarith) (by linarith)
  have w0 : (0 : ℤ) ≤ w := by omega
  obtain ⟨x, y, e1, e2, s⟩ := search_scaled hF hev' (sc hf) (sc hq) hp
    (R.low_le.trans (by omega)) R.top_ge.1 (by linarith [R.square_lo])
    l1 (by linarith [R.square_lo']) l2
    (by linarith [R.square_hi]) (by linarith [R.square_hi']) (by linarith [R.sum_hi])
    (by linarith [R.sum_hi']) (by linarith [R.size])
  exact ⟨x, e1, by rw [e2, s.eq_mul hF R.k_lo R.k_hi]⟩

/-- **C139** (quadratic curves): the computed arc length and the computed distance to a point are
multiplied by `2^k`, exactly. -/
theorem C139_quadratic_lengths (hF : F.Binary p low top) {w : ℕ}
    (R : LengthRoom p low top n 2 w k m b h) (q : QuadraticBezier (PointN (Fl F) n))
    (hs : PointOnGrid m b q.start) (hc : PointOnGrid m b q.ctrl) (he : PointOnGrid m b q.end_) :
    (∀ N ≤ 2 ^ w, ∃ x, q.arclen N = some x ∧
      (q.mapPts (timesTwoPow k)).arclen N = some (x * twoPow F k)) ∧
    ∀ z, PointOnGrid m b z → ∃ x, q.distanceToPoint z = some x ∧
      (q.mapPts (timesTwoPow k)).distanceToPoint (timesTwoPow k z) = some (x * twoPow F k) := by
  constructor
  · intro N hN
    rw [quadratic_arclen_eq, quadratic_arclen_eq]
    exact lengths_scaled hF R hN fun t ht =>
      ⟨_, _, rfl, rfl, (quadratic_scaled hF R.toScaleRoom q hs hc he ht).2.1⟩
  · intro z hz
    rw [quadratic_distance_eq, quadratic_distance_eq]
    exact distances_scaled hF R hs hz fun t ht =>
      ⟨_, _, rfl, rfl, (quadratic_scaled hF R.toScaleRoom q hs hc he ht).1⟩

/-- **C139** (cubic curves): the same. -/
theorem C139_cubic_lengths (hF : F.Binary p low top) {w : ℕ}
    (R : LengthRoom p low top n 3 w k m b h) (c : CubicBezier (PointN (Fl F) n))
    (hs : PointOnGrid m b c.start) (hc : PointOnGrid m b c.ctrl1) (hc' : PointOnGrid m b c.ctrl2)
    (he : PointOnGrid m b c.end_) :
    (∀ N ≤ 2 ^ w, ∃ x, c.arclen N = some x ∧
      (c.mapPts (timesTwoPow k)).arclen N = some (x * twoPow F k)) ∧
    ∀ z, PointOnGrid m b z → ∃ x, c.distanceToPoint z = some x ∧
      (c.mapPts (timesTwoPow k)).distanceToPoint (timesTwoPow k z) = some (x * twoPow F k) := by
  constructor
  · intro N hN
    rw [cubic_arclen_eq, cubic_arclen_eq]
    exact lengths_scaled hF R hN fun t ht =>
      ⟨_, _, rfl, rfl, (cubic_scaled hF R.toScaleRoom c hs hc hc' he ht).2⟩
  · intro z hz
    rw [cubic_distance_eq, cubic_distance_eq]
    exact distances_scaled hF R hs hz fun t ht =>
      ⟨_, _, rfl, rfl, (cubic_scaled hF R.toScaleRoom c hs hc hc' he ht).1⟩

/-- **C139** (curves of any degree): the same. -/
theorem C139_bezier_lengths {M : ℕ} (hM : 1 ≤ M) (hF : F.Binary p low top) {w : ℕ}
    (R : LengthRoom p low top n (M - 1) w k m b h) (c : Bezier (PointN (Fl F) n) M)
    (hc : ∀ i, PointOnGrid m b (c.control_points i)) :
    (∀ N ≤ 2 ^ w, ∃ x, c.arclen N = some x ∧
      (c.mapPts (timesTwoPow k)).arclen N = some (x * twoPow F k)) ∧
    ∀ z, PointOnGrid m b z → ∃ x, c.distanceToPoint z = some x ∧
      (c.mapPts (timesTwoPow k)).distanceToPoint (timesTwoPow k z) = some (x * twoPow F k) := by
  constructor
  · intro N hN
    rw [bezier_arclen_eq, bezier_arclen_eq]
    exact lengths_scaled hF R hN fun t ht => bezier_scaled hM hF R.toScaleRoom c hc ht
  · intro z hz
    rw [bezier_distance_eq, bezier_distance_eq]
    have e : ∀ c : Bezier (PointN (Fl F) n) M,
        c.control_points.get? 0 = some (c.control_points ⟨0, hM⟩) := fun c => by
      unfold Arr.get?
      rw [dif_pos (by omega)]
    rw [e, e]
    exact distances_scaled hF R (hc _) hz fun t ht => bezier_scaled hM hF R.toScaleRoom c hc ht

/-- **C139** (derivative of curves of any degree): the derivative curve is multiplied by `2^k`,
exactly, or the call panics as before; at most `2^p` control points. -/
theorem C139_bezier_derivative {N : ℕ} (hF : F.Binary p low top)
    (R : ScaleRoom low top (N - 1) k m b h) (hp : N ≤ 2 ^ p) (c : Bezier (PointN (Fl F) n) N)
    (hc : ∀ i, PointOnGrid m b (c.control_points i)) :
    (c.mapPts (timesTwoPow k)).derivative
      = (c.derivative).map (Bezier.mapPts (timesTwoPow k)) := by
  match N, c with
  | 0, c =>
    have e : ∀ (b : Bezier (PointN (Fl F) n) 0), ∃ d, Bezier.derivative b = some d :=
      fun b => ⟨_, rfl⟩
    obtain ⟨d, hd⟩ := e c
    obtain ⟨d', hd'⟩ := e (c.mapPts (timesTwoPow k))
    rw [hd, hd']
    simp only [Option.map_some]
    congr 1
    cases d; cases d'
    simp only [Bezier.mapPts]
    congr 1
    funext i
    exact i.elim0
  | 1, c => rfl
  | N + 2, c =>
    rw [bezier_derivative_eq _ (by omega), bezier_derivative_eq _ (by omega)]
    simp only [Bezier.mapPts, Option.map_some]
    congr 2
    funext i
    obtain ⟨r1, r2, r3, r4, r5, r6, r7, r8, r9⟩ := R
    push_cast [Nat.add_sub_cancel] at *
    have hd : ((N : ℤ) + 1) * h ≤ 0 := mul_nonpos_of_nonneg_of_nonpos (by omega) r3
    have hlt : N + 1 < 2 ^ (N + 1) := Nat.lt_two_pow_self
    obtain ⟨hok, e⟩ : ∃ hh, (Scalar.ofUsize (N + 2 - 1) : Fl F) = fin ((N + 2 - 1 : ℕ) : ℝ) hh := by
      rcases le_total (N + 1) p with hle | hle
      · exact ofUsize_eq hF (by omega) (w := N + 1) (by omega) hle (by push_cast; omega)
      · exact ofUsize_eq hF (by omega) (w := p) (by omega) le_rfl (by omega)
    have g : OnGrid 0 ((N : ℤ) + 1) (Scalar.ofUsize (N + 2 - 1) : Fl F) := by
      rw [e]
      refine ⟨trivial, by simpa using isMultiple_int ((N + 2 - 1 : ℕ) : ℤ), ?_⟩
      rw [toReal_fin, abs_of_nonneg (Nat.cast_nonneg _),
        show ((N : ℤ) + 1) = ((N + 1 : ℕ) : ℤ) by push_cast; rfl, zpow_natCast]
      exact_mod_cast hlt.le
    have s1 := (hc ⟨i.val, by omega⟩).scaled hF r1 r2 (by omega) (by omega) (by omega) (by omega)
    have s2 := (hc ⟨i.val + 1, by omega⟩).scaled hF r1 r2 (by omega) (by omega) (by omega) (by omega)
    exact ((s2.sub hF s1 (by omega) (by omega) (by omega) (by omega)).mulParam hF g
      (by omega) (by omega) (by omega) (by omega)).eq_mul hF r1 r2

end

section

variable (cosI acosI : ℝ → ℝ) (powI : ℝ → ℝ → ℝ)

theorem binary64_binary : (binary64 cosI acosI powI).Binary 53 (-1022) 1023 :=
  ieee_binary 53 (-1074) 971 _ _ cosI acosI powI

theorem binary32_binary : (binary32 cosI acosI powI).Binary 24 (-126) 127 :=
  ieee_binary 24 (-149) 104 _ _ cosI acosI powI

theorem binary64_room {n d : ℕ} (hn : n ≤ 500) (hd : d ≤ 3) {k : ℤ} (hk : |k| ≤ 100) :
    LengthRoom 53 (-1022) 1023 n d 32 k (-100) 100 (-85) := by
  obtain ⟨h1, h2⟩ := abs_le.mp hk
  constructor <;> first | omega | (constructor <;> omega)

/-- **C139** in binary64, for cubic curves in at most 500 dimensions, with coordinates that are
multiples of `2^-100` of size at most `2^100` and factors from `2^-100` to `2^100`: all calls are
exact. -/
theorem C139_cubic_binary64 {n : ℕ} (hn : n ≤ 500) {k : ℤ} (hk : |k| ≤ 100)
    (c : CubicBezier (PointN (Fl (binary64 cosI acosI powI)) n))
    (hs : PointOnGrid (-100) 100 c.start) (hc : PointOnGrid (-100) 100 c.ctrl1)
    (hc' : PointOnGrid (-100) 100 c.ctrl2) (he : PointOnGrid (-100) 100 c.end_) :
    (∀ t, OnGrid (-85) 2 t →
      (c.mapPts (timesTwoPow k)).eval t = timesTwoPow k (c.eval t) ∧
      (c.mapPts (timesTwoPow k)).split t
        = ((c.split t).1.mapPts (timesTwoPow k), (c.split t).2.mapPts (timesTwoPow k))) ∧
    (∀ N ≤ 2 ^ 32, ∃ x, c.arclen N = some x ∧
      (c.mapPts (timesTwoPow k)).arclen N = some (x * twoPow _ k)) ∧
    ∀ z, PointOnGrid (-100) 100 z → ∃ x, c.distanceToPoint z = some x ∧
      (c.mapPts (timesTwoPow k)).distanceToPoint (timesTwoPow k z) = some (x * twoPow _ k) := by
  have R := binary64_room hn (le_refl 3) hk
  have hF := binary64_binary cosI acosI powI
  refine ⟨fun t ht => ?_, C139_cubic_lengths hF R c hs hc hc' he⟩
  have := C139_cubic hF R.toScaleRoom c hs hc hc' he ht
  exact ⟨this.1, this.2.2.1⟩

/-- The conditions are met: curves whose coordinates are integers up to `2^32`, sampled at 1/2, in
binary64, can be scaled by any power of two from `2^-100` to `2^100`. -/
example (z : ℤ) (hz : |z| ≤ 2 ^ 32) : OnGrid (F := binary64 cosI acosI powI) (-100) 100
    ((binary64 cosI acosI powI).round (z : ℝ)) := by
  have hF := binary64_binary cosI acosI powI
  have zb : |(z : ℝ)| ≤ 2 ^ (100 : ℤ) := by
    have : |(z : ℝ)| ≤ 2 ^ 32 := by exact_mod_cast hz
    exact this.trans (by norm_num)
  have := ScaledFl.round hF (k := 0) (r := (z : ℝ)) (r' := z) (m := -100) (b := 100)
    (by
      refine ⟨z * 2 ^ 100, ?_⟩
      push_cast
      norm_num
      ring) zb (by norm_num) (by norm_num) (by norm_num) (by norm_num) (by simp)
  exact this.onGrid

/-- The conditions can be met in binary32 too: a quadratic curve in the plane. -/
example : ScaleRoom (-126) 127 3 20 (-10) 10 (-20) := by
  constructor <;> norm_num

example : LengthRoom 24 (-126) 127 2 2 3 4 0 10 (-27) := by
  constructor <;> first | omega | (constructor <;> omega)

/-- **C139** is false of `LineSegment::distance_to_point`: in binary64 the segment from 0 to `2^-27`
on the axis is shorter than the tolerance, so the point in its middle is at distance `2^-28` from
it.  Scaled by `2^27` the same point is at distance 0. -/
theorem C139_segment_distance_not :
    ∃ (l : LineSegment (PointN (Fl (binary64 cosI acosI powI)) 1)) (z : PointN _ 1) (d : Fl _),
      PointOnGrid (-28) 0 l.start ∧ PointOnGrid (-28) 0 l.end_ ∧ PointOnGrid (-28) 0 z ∧
      l.distanceToPoint z = some d ∧
      (l.mapPts (timesTwoPow 27)).distanceToPoint (timesTwoPow 27 z)
        ≠ some (d * twoPow _ 27) := by
  set F := binary64 cosI acosI powI with hF
  have B := binary64_binary cosI acosI powI
  rw [← hF] at B
  have ok : ∀ e : ℤ, |e| ≤ 100 → (2 : ℝ) ^ e ∈ F.grid ∧ |(2 : ℝ) ^ e| ≤ F.max := by
    intro e he
    have := abs_le.mp he
    refine ⟨B.two_mem (by omega), ?_⟩
    rw [abs_of_pos (by positivity)]
    exact (two_zpow_mono (by omega)).trans B.top_le
  have c : ∀ (e : ℤ) (he : |e| ≤ 100), twoPow F e = fin (2 ^ e) (ok e he) :=
    fun e he => F.round_of_mem (ok e he)
  have mul : ∀ e f g : ℤ, |e| ≤ 100 → |f| ≤ 100 → |g| ≤ 100 → e + f = g →
      twoPow F e * twoPow F f = twoPow F g := by
    intro e f g he hf hg h
    rw [c e he, c f hf, c g hg, fin_mul, ← zpow_add₀ (by norm_num), h, F.round_of_mem (ok g hg)]
  have zadd : ∀ x : Fl F, x.IsFinite → (lit 0 : Fl F) + x = x := by
    intro x hx
    obtain ⟨r, hr, rfl⟩ := isFinite_iff.mp hx
    rw [lit_zero, fin_add, zero_add, F.round_of_mem hr]
  have subz : ∀ x : Fl F, x.IsFinite → x - (lit 0 : Fl F) = x := by
    intro x hx
    obtain ⟨r, hr, rfl⟩ := isFinite_iff.mp hx
    rw [lit_zero, fin_sub, sub_zero, F.round_of_mem hr]
  have zup : (lit 0 : Fl F) * twoPow F 27 = lit 0 := by
    rw [lit_zero, c 27 (by norm_num), fin_mul, zero_mul, F.round_of_mem F.zero_ok]
  have fin_c : ∀ e : ℤ, |e| ≤ 100 → (twoPow F e).IsFinite := fun e he => by
    rw [c e he]
    trivial
  have fin_z : (lit 0 : Fl F).IsFinite := by
    rw [lit_zero]
    trivial
  let pt : Fl F → PointN (Fl F) 1 := fun x => ⟨fun _ => x⟩
  have pt_sub : ∀ x y, pt x - pt y = pt (x - y) := fun _ _ => rfl
  have pt_add : ∀ x y, pt x + pt y = pt (x + y) := fun _ _ => rfl
  have pt_mul : ∀ x y, pt x * y = pt (x * y) := fun _ _ => rfl
  have pt_len : ∀ x, Point.squaredLength (pt x) = lit 0 + x * x := fun _ => rfl
  have pt_dot : ∀ x y, LineSegment.dotLoop (pt x) (pt y) = some (lit 0 + x * y) := fun _ _ => rfl
  have root : Scalar.sqrt (twoPow F (-56)) = twoPow F (-28) := by
    rw [c (-56) (by norm_num), c (-28) (by norm_num)]
    have : ¬ ((2 : ℝ) ^ (-56 : ℤ) < 0) := not_lt.mpr (by positivity)
    show Fl.sqrt (fin _ _) = fin _ _
    unfold Fl.sqrt
    simp only [this, if_false]
    have e1 : √((2 : ℝ) ^ (-56 : ℤ)) = 2 ^ (-28 : ℤ) := by
      rw [show (-56 : ℤ) = -28 + -28 by norm_num, zpow_add₀ (by norm_num),
        Real.sqrt_mul_self (by positivity)]
    rw [e1, F.round_of_mem (ok (-28) (by norm_num))]
  have zmul : (lit 0 : Fl F) * lit 0 = lit 0 := by
    rw [lit_zero, fin_mul, zero_mul, F.round_of_mem F.zero_ok]
  have zroot : Scalar.sqrt (lit 0 : Fl F) = lit 0 := by
    rw [lit_zero]
    show Fl.sqrt (fin _ _) = fin _ _
    unfold Fl.sqrt
    simp only [lt_irrefl, if_false, Real.sqrt_zero]
    rw [F.round_of_mem F.zero_ok]
  have eps : F.epsilon = 2 ^ (-52 : ℤ) := by
    rw [hF]
    show (2 : ℝ) ^ (1 - ((53 : ℕ) : ℤ)) = _
    norm_num
  have grid : ∀ e : ℤ, |e| ≤ 100 → -28 ≤ e → e ≤ 0 → PointOnGrid (-28) 0 (pt (twoPow F e)) := by
    intro e he h1 h2 _
    show OnGrid _ _ (twoPow F e)
    rw [c e he]
    refine ⟨trivial, IsMultiple.mono (m := e) ⟨1, by push_cast; rw [one_mul]; rfl⟩ h1, ?_⟩
    show |(2 : ℝ) ^ e| ≤ _
    rw [abs_of_pos (by positivity)]
    exact two_zpow_mono h2
  refine ⟨⟨pt (lit 0), pt (twoPow F (-27))⟩, pt (twoPow F (-28)), twoPow F (-28), ?_,
    grid (-27) (by norm_num) (by norm_num) (by norm_num),
    grid (-28) (by norm_num) (by norm_num) (by norm_num), ?_, ?_⟩
  · intro _
    show OnGrid _ _ (lit 0 : Fl F)
    rw [lit_zero]
    exact ⟨trivial, isMultiple_zero _, by simp⟩
  · unfold LineSegment.distanceToPoint
    have l2 : Scalar.lt (twoPow F (-54)) (Scalar.epsilon : Fl F) = true := by
      rw [epsilon_eq, c (-54) (by norm_num), lt_fin, eps]
      exact zpow_lt_zpow_right₀ (by norm_num) (by norm_num)
    have neg : ((lit 0 : Fl F) - twoPow F (-28)) * ((lit 0 : Fl F) - twoPow F (-28))
        = twoPow F (-28) * twoPow F (-28) := by
      have := ok (-28) (by norm_num)
      rw [c (-28) (by norm_num), lit_zero, fin_sub, zero_sub, F.round_of_mem
        ⟨F.neg_mem _ this.1, by rw [abs_neg]; exact this.2⟩, fin_mul, fin_mul, neg_mul_neg]
    simp only [pt_sub, pt_len]
    rw [subz _ (fin_c (-27) (by norm_num)), neg,
      mul (-27) (-27) (-54) (by norm_num) (by norm_num) (by norm_num) (by norm_num),
      zadd _ (fin_c (-54) (by norm_num)), if_pos l2,
      mul (-28) (-28) (-56) (by norm_num) (by norm_num) (by norm_num) (by norm_num),
      zadd _ (fin_c (-56) (by norm_num)), root]
    rfl
  · have e1 : (⟨pt (lit 0), pt (twoPow F (-27))⟩ : LineSegment (PointN (Fl F) 1)).mapPts
        (timesTwoPow 27) = ⟨pt (lit 0), pt (twoPow F 0)⟩ := by
      show (⟨pt (lit 0 * twoPow F 27), pt (twoPow F (-27) * twoPow F 27)⟩ :
        LineSegment (PointN (Fl F) 1)) = _
      rw [zup, mul (-27) 27 0 (by norm_num) (by norm_num) (by norm_num) (by norm_num)]
    have e2 : timesTwoPow 27 (pt (twoPow F (-28))) = pt (twoPow F (-1)) := by
      show pt (twoPow F (-28) * twoPow F 27) = _
      rw [mul (-28) 27 (-1) (by norm_num) (by norm_num) (by norm_num) (by norm_num)]
    rw [e1, e2, mul (-28) 27 (-1) (by norm_num) (by norm_num) (by norm_num) (by norm_num)]
    have l2 : Scalar.lt (twoPow F 0) (Scalar.epsilon : Fl F) = false := by
      rw [epsilon_eq, c 0 (by norm_num), Bool.eq_false_iff, ne_eq, lt_fin, eps, not_lt]
      exact two_zpow_mono (by norm_num)
    have q : twoPow F (-1) / twoPow F 0 = twoPow F (-1) := by
      rw [c (-1) (by norm_num), c 0 (by norm_num), fin_div (by positivity), zpow_zero, div_one,
        F.round_of_mem (ok (-1) (by norm_num))]
    have q1 : Scalar.lt (twoPow F (-1)) (lit 1 : Fl F) = true := by
      rw [lit_one, c (-1) (by norm_num), lt_fin]
      norm_num
    have q2 : Scalar.lt (twoPow F (-1)) (lit 0 : Fl F) = false := by
      rw [lit_zero, c (-1) (by norm_num), Bool.eq_false_iff, ne_eq, lt_fin, not_lt]
      positivity
    have cancel : twoPow F (-1) - twoPow F (-1) = lit 0 := by
      rw [c (-1) (by norm_num), fin_sub, sub_self, lit_zero, F.round_of_mem F.zero_ok]
    unfold LineSegment.distanceToPoint
    simp only [pt_sub, pt_len, pt_dot]
    rw [subz _ (fin_c 0 (by norm_num)), subz _ (fin_c (-1) (by norm_num)),
      mul 0 0 0 (by norm_num) (by norm_num) (by norm_num) (by norm_num),
      mul (-1) 0 (-1) (by norm_num) (by norm_num) (by norm_num) (by norm_num),
      zadd _ (fin_c 0 (by norm_num)), zadd _ (fin_c (-1) (by norm_num)), l2]
    simp only [Bool.false_eq_true, if_false, Option.bind_eq_bind, Option.bind_some, q, q1, q2,
      if_true, pt_mul, pt_add, pt_sub]
    rw [mul 0 (-1) (-1) (by norm_num) (by norm_num) (by norm_num) (by norm_num),
      zadd _ (fin_c (-1) (by norm_num)), cancel, pt_len, zmul, zadd _ fin_z, zroot]
    intro h
    have h' : (lit 0 : Fl F) = twoPow F (-1) := Option.some.inj h
    rw [lit_zero, c (-1) (by norm_num)] at h'
    have := congrArg Fl.toReal h'
    have pos : (0 : ℝ) < 2 ^ (-1 : ℤ) := by positivity
    exact absurd this pos.ne

end

end Stroke
