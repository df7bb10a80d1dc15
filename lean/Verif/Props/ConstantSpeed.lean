import Verif.Props.ArcLengthSplit
import Verif.Props.Uniqueness
import Verif.Props.CutOrder
import Verif.Props.Joining
import Verif.Props.LengthBounds
import Mathlib.MeasureTheory.Integral.IntervalIntegral.FundThmCalculus
import Mathlib.Analysis.Calculus.Deriv.Inverse

/-!
# Walking along a curve at constant speed (C128)
-/

set_option linter.unusedSectionVars false

namespace Stroke

open Set MeasureTheory

variable {P : Type} [Point ℝ P] [LawfulPoint P] {N : ℕ}

/-- The lengths `arclen(n)` of the curve tend to `s` as the number of steps grows. -/
def HasLength (b : Bezier P N) (s : ℝ) : Prop :=
  ∃ A : ℕ → ℝ, (∀ n, b.arclen n = some (A n)) ∧ Filter.Tendsto A Filter.atTop (nhds s)

/-- The first piece of `split(t)` has length `s`. -/
def LengthUpTo (b : Bezier P N) (t s : ℝ) : Prop :=
  ∃ l r, b.split t = some (l, r) ∧ HasLength l s

/-! ### The length as an integral -/

/-- Speed of the curve with control points `ps` at the parameter `u`. -/
noncomputable def speed (ps : Fin N → P) (u : ℝ) : ℝ :=
  Real.sqrt (∑ i ∈ Finset.range (Point.dim P), deriv (fun x => bezierCoord ps x i) u ^ 2)

theorem bezierCoord_smooth (ps : Fin N → P) (i : ℕ) (k : WithTop ℕ∞) :
    ContDiff ℝ k fun t => bezierCoord ps t i := by
  unfold bezierCoord bernstein
  fun_prop

theorem speed_continuous (ps : Fin N → P) : Continuous (speed ps) := by
  unfold speed
  apply Continuous.sqrt
  apply continuous_finsetSum
  intro i _
  exact ((bezierCoord_smooth ps i 2).continuous_deriv (by norm_num)).pow 2

theorem hasLength_iff (b : Bezier P N) (hN : 1 ≤ N) (s : ℝ) :
    HasLength b s ↔ s = ∫ u in (0 : ℝ)..1, speed b.control_points u := by
  obtain ⟨A, hA, -, hx⟩ := C39_partial b hN
  constructor
  · rintro ⟨A', hA', hs⟩
    have : A' = A := funext fun n => Option.some.inj ((hA' n).symm.trans (hA n))
    rw [this] at hs
    exact tendsto_nhds_unique hs hx
  · rintro rfl
    exact ⟨A, hA, hx⟩

theorem lengthUpTo_iff (b : Bezier P N) (hN : 1 ≤ N) {t : ℝ} (t0 : 0 ≤ t) (s : ℝ) :
    LengthUpTo b t s ↔ s = ∫ u in (0 : ℝ)..t, speed b.control_points u := by
  obtain ⟨l, r, hs, h⟩ := C33_split b t
  have key : LengthUpTo b t s ↔ HasLength l s := by
    constructor
    · rintro ⟨l', r', hs', hl⟩
      rw [hs] at hs'
      cases hs'
      exact hl
    · exact fun hl => ⟨l, r, hs, hl⟩
  have el : ∀ i, (fun x => bezierCoord l.control_points x i)
      = fun x => bezierCoord b.control_points (t * x) i := by
    intro i
    funext x
    obtain ⟨q, hq, hc⟩ := C30_eval l hN x
    obtain ⟨q', hq', hc'⟩ := C30_eval b hN (t * x)
    rw [(h hN x).1, hq'] at hq
    cases hq
    exact (hc i).symm.trans (hc' i)
  have dl : ∀ x i, deriv (fun u => bezierCoord l.control_points u i) x
      = t * deriv (fun u => bezierCoord b.control_points u i) (t * x) := by
    intro x i
    rw [el i]
    have h1 := ((bezierCoord_smooth b.control_points i 2).differentiable two_ne_zero (t * x)).hasDerivAt
    have h2 := h1.comp x ((hasDerivAt_id x).const_mul t)
    rw [mul_one, mul_comm] at h2
    exact h2.deriv
  have sp : ∀ x, speed l.control_points x = t * speed b.control_points (t * x) := by
    intro x
    unfold speed
    simp only [dl, mul_pow]
    rw [← Finset.mul_sum, Real.sqrt_mul (sq_nonneg _), Real.sqrt_sq t0]
  rw [key, hasLength_iff l hN]
  simp only [sp]
  rw [intervalIntegral.integral_const_mul, ← smul_eq_mul, intervalIntegral.smul_integral_comp_mul_left,
    mul_zero, mul_one]

/-- A curve whose control points are not all the same has moments of non-zero speed everywhere. -/
theorem speed_pos (b : Bezier P N) (hN : 1 ≤ N) (hb : ∃ k, b.control_points k ≠ b.control_points ⟨0, hN⟩)
    {x y : ℝ} (h : x < y) : ∃ u ∈ Icc x y, 0 < speed b.control_points u := by
  by_contra hz
  push Not at hz
  have z : ∀ u ∈ Icc x y, ∀ i < Point.dim P, deriv (fun w => bezierCoord b.control_points w i) u = 0 := by
    intro u hu i hi
    have h1 := hz u hu
    have h2 := (Real.sqrt_eq_zero (Finset.sum_nonneg fun i _ => sq_nonneg _)).1
      (le_antisymm h1 (Real.sqrt_nonneg _))
    rw [Finset.sum_eq_zero_iff_of_nonneg fun i _ => sq_nonneg _] at h2
    exact pow_eq_zero_iff two_ne_zero |>.1 (h2 i (Finset.mem_range.2 hi))
  have cst : ∀ u ∈ Icc x y, ∀ i < Point.dim P,
      bezierCoord b.control_points u i = bezierCoord b.control_points x i := by
    intro u hu i hi
    refine constant_of_derivWithin_zero
      (((bezierCoord_smooth b.control_points i 2).differentiable two_ne_zero).differentiableOn)
      (fun w hw => ?_) u hu
    rw [((bezierCoord_smooth b.control_points i 2).differentiable two_ne_zero w).derivWithin
      (uniqueDiffOn_Icc h w (Ico_subset_Icc_self hw))]
    exact z w (Ico_subset_Icc_self hw) i hi
  obtain ⟨p, hp, hpc⟩ := C30_eval b hN x
  have hsub : ∃ T : Finset ℝ, N ≤ T.card ∧ ∀ t ∈ T, t ∈ Icc x y := by
    obtain ⟨T, hT, hc⟩ := (Icc_infinite h).exists_subset_card_eq N
    exact ⟨T, hc.ge, fun t ht => hT ht⟩
  obtain ⟨T, hT, hT'⟩ := hsub
  have := C93_bezier b ⟨fun _ => p⟩ T hT fun t ht => by
    obtain ⟨q, hq, hqc⟩ := C30_eval b hN t
    obtain ⟨q', hq', hqc'⟩ := C30_eval (⟨fun _ => p⟩ : Bezier P N) hN t
    rw [hq, hq']
    congr 1
    refine point_ext_dim fun i hi => ?_
    rw [hqc, hqc']
    refine (cst t (hT' t ht) i hi).trans ((hpc i).symm.trans ?_)
    show coord p i = ∑ k : Fin N, bernstein (N - 1) k.val t * coord p i
    have := bernstein_sum (N - 1) t
    rw [Nat.sub_add_cancel hN] at this
    rw [← Finset.sum_mul, Fin.sum_univ_eq_sum_range (fun k => bernstein (N - 1) k t), this, one_mul]
  obtain ⟨k, hk⟩ := hb
  rw [this] at hk
  exact hk rfl

/-- Length of the curve from 0 to `t`. -/
noncomputable def lengthTo (ps : Fin N → P) (t : ℝ) : ℝ := ∫ u in (0 : ℝ)..t, speed ps u

theorem lengthTo_deriv (ps : Fin N → P) (t : ℝ) : HasDerivAt (lengthTo ps) (speed ps t) t :=
  intervalIntegral.integral_hasDerivAt_right ((speed_continuous ps).intervalIntegrable _ _)
    ((speed_continuous ps).stronglyMeasurableAtFilter _ _) (speed_continuous ps).continuousAt

theorem lengthTo_continuous (ps : Fin N → P) : Continuous (lengthTo ps) :=
  continuous_iff_continuousAt.2 fun t => (lengthTo_deriv ps t).continuousAt

theorem lengthTo_sub (ps : Fin N → P) (x y : ℝ) :
    lengthTo ps y - lengthTo ps x = ∫ u in x..y, speed ps u :=
  intervalIntegral.integral_interval_sub_left ((speed_continuous ps).intervalIntegrable _ _)
    ((speed_continuous ps).intervalIntegrable _ _)

theorem lengthTo_mono (ps : Fin N → P) : Monotone (lengthTo ps) := fun x y h => by
  have := lengthTo_sub ps x y
  have h2 : 0 ≤ ∫ u in x..y, speed ps u :=
    intervalIntegral.integral_nonneg h fun u _ => Real.sqrt_nonneg _
  linarith

theorem lengthTo_strictMono (b : Bezier P N) (hN : 1 ≤ N)
    (hb : ∃ k, b.control_points k ≠ b.control_points ⟨0, hN⟩) :
    StrictMono (lengthTo b.control_points) := fun x y h => by
  have := lengthTo_sub b.control_points x y
  have h2 : 0 < ∫ u in x..y, speed b.control_points u :=
    intervalIntegral.integral_pos h (speed_continuous _).continuousOn
      (fun u _ => Real.sqrt_nonneg _) (speed_pos b hN hb h)
  linarith

theorem lengthTo_zero (ps : Fin N → P) : lengthTo ps 0 = 0 := intervalIntegral.integral_same

/-! ### The claims -/

/-- **C128**: a curve has a length, and every length up to it is the length of the first piece of
`split(t)` for some `t`. -/
theorem C128_exists (b : Bezier P N) (hN : 1 ≤ N) :
    ∃ L, HasLength b L ∧ ∀ s, 0 ≤ s → s ≤ L → ∃ t, 0 ≤ t ∧ t ≤ 1 ∧ LengthUpTo b t s := by
  refine ⟨lengthTo b.control_points 1, (hasLength_iff b hN _).2 rfl, fun s s0 s1 => ?_⟩
  have := intermediate_value_Icc zero_le_one (lengthTo_continuous b.control_points).continuousOn
  rw [lengthTo_zero] at this
  obtain ⟨t, ht, rfl⟩ := this ⟨s0, s1⟩
  exact ⟨t, ht.1, ht.2, (lengthUpTo_iff b hN ht.1 _).2 rfl⟩

/-- **C128**: the parameter is unique, unless all control points coincide: a longer piece ends
later. -/
theorem C128_order (b : Bezier P N) (hN : 1 ≤ N)
    (hb : ∃ k, b.control_points k ≠ b.control_points ⟨0, hN⟩) {t t' s s' : ℝ} (t0 : 0 ≤ t)
    (t0' : 0 ≤ t') (h : LengthUpTo b t s) (h' : LengthUpTo b t' s') :
    (t < t' ↔ s < s') ∧ (t = t' ↔ s = s') := by
  rw [lengthUpTo_iff b hN t0] at h
  rw [lengthUpTo_iff b hN t0'] at h'
  have sm := lengthTo_strictMono b hN hb
  rw [h, h']
  exact ⟨sm.lt_iff_lt.symm, sm.injective.eq_iff.symm⟩

/-- **C128**: the piece between two parameters has the difference of the lengths as its length. -/
theorem C128_between (b : Bezier P N) (hN : 1 ≤ N) {t t' s s' : ℝ} (t0 : 0 ≤ t) (h0 : 0 < t')
    (h : LengthUpTo b t s) (h' : LengthUpTo b t' s') (htt : t ≤ t') :
    ∃ l r x y, b.split t' = some (l, r) ∧ l.split (t / t') = some (x, y) ∧ HasLength x s ∧
      HasLength y (s' - s) := by
  obtain ⟨l, r, hs, hl⟩ := h'
  have u0 : 0 ≤ t / t' := div_nonneg t0 h0.le
  have u1 : t / t' ≤ 1 := (div_le_one h0).2 htt
  obtain ⟨x, y, L, Lx, Ly, a, ax, ay, hxy, hA, ha, hax, hay, e⟩ := C95_limit l hN (t / t') u0 u1
  have hxs : HasLength x s := by
    obtain ⟨l', r', ll, lr, rl, rr, x', y', x'', y'', e1, e2, -, e4, e5, -⟩ := C102_bezier b t' (t / t')
    rw [hs] at e1
    cases e1
    rw [hxy] at e2
    cases e2
    obtain ⟨l'', r'', e6, h6⟩ := h
    rw [mul_div_cancel₀ _ h0.ne', e6] at e4
    cases e4
    rw [e5]
    exact h6
  refine ⟨l, r, x, y, hs, hxy, hxs, Ly, fun n => (hA n).2.2, ?_⟩
  have e1 : a = s' := by
    rw [hasLength_iff l hN] at hl
    rw [hl, ← hasLength_iff l hN]
    exact ⟨L, fun n => (hA n).1, ha⟩
  have e2 : ax = s := by
    rw [hasLength_iff x hN] at hxs
    rw [hxs, ← hasLength_iff x hN]
    exact ⟨Lx, fun n => (hA n).2.1, hax⟩
  rw [show s' - s = ay by linarith]
  exact hay

/-- **C128**: two points of the curve are never further apart than the lengths up to them differ. -/
theorem C128_chord (b : Bezier P N) (hN : 1 ≤ N) {t t' s s' : ℝ} (t0 : 0 ≤ t) (htt : t ≤ t')
    (h : LengthUpTo b t s) (h' : LengthUpTo b t' s') {p q : P} (hp : b.eval t = some p)
    (hq : b.eval t' = some q) : pdist p q ≤ s' - s := by
  rcases (t0.trans htt).eq_or_lt with h0 | h0
  · have e : t = t' := le_antisymm htt (h0 ▸ t0)
    subst e
    rw [lengthUpTo_iff b hN t0] at h h'
    rw [hp] at hq
    cases hq
    rw [h, ← h', sub_self]
    exact (pdist_eq_zero.2 rfl).le
  obtain ⟨l, r, x, y, e1, e2, -, hy⟩ := C128_between b hN t0 h0 h h' htt
  obtain ⟨l', r', e1', k1⟩ := C33_split b t'
  rw [e1] at e1'
  cases e1'
  obtain ⟨x', y', e2', k2⟩ := C33_split l (t / t')
  rw [e2] at e2'
  cases e2'
  have y0 : y.eval (0 : ℝ) = some p := by
    rw [(k2 hN 0).2, mul_zero, add_zero, (k1 hN _).1, mul_div_cancel₀ _ h0.ne', hp]
  have y1 : y.eval (1 : ℝ) = some q := by
    rw [(k2 hN 1).2, mul_one, add_sub_cancel, (k1 hN _).1, mul_one, hq]
  rw [(C31_endpoints y hN).1, Option.some.injEq] at y0
  rw [(C31_endpoints y hN).2, Option.some.injEq] at y1
  rw [(hasLength_iff y hN _).1 hy, ← y0, ← y1]
  exact bezier_chord_le_arc y hN

/-- **C128**: walking along a curve so that the length behind is `s` at time `s`, one moves at
constant speed: where the derivative of the curve does not vanish, the velocity of the walk is the
unit vector in its direction. -/
theorem C128_speed (b : Bezier P N) (hN : 2 ≤ N)
    (hb : ∃ k, b.control_points k ≠ b.control_points ⟨0, by omega⟩) {L : ℝ} (hL : HasLength b L)
    (walk : ℝ → P) (hw : ∀ s, 0 ≤ s → s ≤ L → ∃ t, 0 ≤ t ∧ t ≤ 1 ∧ LengthUpTo b t s ∧
      b.eval t = some (walk s)) {s t : ℝ} (s0 : 0 < s) (sL : s < L) (t0 : 0 ≤ t)
    (hst : LengthUpTo b t s) :
    ∃ (d : Bezier P (N - 1)) (v : P), Bezier.derivative (S := ℝ) b = some d ∧ d.eval t = some v ∧
      (v ≠ Point.default → HasPointDerivAt walk (fun i => coord v i / pdist v Point.default) s) := by
  have hN1 : 1 ≤ N := by omega
  obtain ⟨d, f, g, hd, hf, hg, hfg⟩ := bezier_derivative_curve b hN
  refine ⟨d, g t, hd, hg t, fun hv => ?_⟩
  have hc : ∀ u i, bezierCoord b.control_points u i = coord (f u) i := fun u i => by
    obtain ⟨q, hq, hqc⟩ := C30_eval b hN1 u
    rw [hf u] at hq
    cases hq
    exact (hqc i).symm
  have hsp : speed b.control_points t = pdist (g t) Point.default := by
    unfold speed pdist
    congr 1
    refine Finset.sum_congr rfl fun i hi => ?_
    simp only [hc]
    rw [(hfg t i (Finset.mem_range.1 hi)).deriv, LawfulPoint.coord_default, sub_zero]
  have hpos : speed b.control_points t ≠ 0 := by
    rw [hsp]
    exact fun h => hv (pdist_eq_zero.1 h)
  have sm := lengthTo_strictMono b hN1 hb
  have eL : L = lengthTo b.control_points 1 := (hasLength_iff b hN1 L).1 hL
  choose! τ hτ using hw
  have inv : ∀ x, 0 ≤ x → x ≤ L → lengthTo b.control_points (τ x) = x := fun x h0 h1 => by
    obtain ⟨a0, -, h, -⟩ := hτ x h0 h1
    exact ((lengthUpTo_iff b hN1 a0 x).1 h).symm
  have est : lengthTo b.control_points t = s := ((lengthUpTo_iff b hN1 t0 s).1 hst).symm
  have eτ : τ s = t := sm.injective (by rw [inv s s0.le sL.le, est])
  have near : Ioo 0 L ∈ nhds s := Ioo_mem_nhds s0 sL
  have cont : ContinuousAt τ s := by
    refine StrictMonoOn.continuousAt_of_image_mem_nhds (s := Ioo 0 L) ?_ near ?_
    · intro x hx y hy hxy
      rw [← sm.lt_iff_lt, inv x hx.1.le hx.2.le, inv y hy.1.le hy.2.le]
      exact hxy
    · have : Ioo (0 : ℝ) 1 ∈ nhds (τ s) := by
        refine Ioo_mem_nhds ?_ ?_
        · rw [← sm.lt_iff_lt, inv s s0.le sL.le, lengthTo_zero]
          exact s0
        · rw [← sm.lt_iff_lt, inv s s0.le sL.le, ← eL]
          exact sL
      refine Filter.mem_of_superset this fun x hx => ?_
      have h0 : 0 < lengthTo b.control_points x := by
        rw [← lengthTo_zero b.control_points]
        exact sm hx.1
      have h1 : lengthTo b.control_points x < L := by
        rw [eL]
        exact sm hx.2
      exact ⟨_, ⟨h0, h1⟩, sm.injective (inv _ h0.le h1.le)⟩
  have dτ : HasDerivAt τ (speed b.control_points t)⁻¹ s := by
    refine HasDerivAt.of_local_left_inverse cont (f := lengthTo b.control_points) ?_ hpos ?_
    · rw [eτ]
      exact lengthTo_deriv _ t
    · filter_upwards [near] with x hx
      exact inv x hx.1.le hx.2.le
  intro i hi
  have h1 : HasDerivAt (fun u => coord (f u) i) (coord (g t) i) (τ s) := by
    rw [eτ]
    exact hfg t i hi
  have h2 : HasDerivAt (fun x => coord (f (τ x)) i)
      (coord (g t) i * (speed b.control_points t)⁻¹) s := h1.comp s dτ
  rw [hsp, ← div_eq_mul_inv] at h2
  refine h2.congr_of_eventuallyEq ?_
  filter_upwards [near] with x hx
  have h3 := (hτ x hx.1.le hx.2.le).2.2.2
  rw [hf] at h3
  rw [Option.some.inj h3]

/-! ### Quadratic and cubic curves -/

theorem QuadraticBezier.generic_arclen (q : QuadraticBezier P) (n : ℕ) :
    q.generic.arclen n = q.arclen n := by
  obtain ⟨f, hf, ha⟩ := C39_actual q.generic (by norm_num)
  have hfq : ∀ t, f t = q.eval t := fun t =>
    Option.some.inj ((hf t).symm.trans (C32_quadratic_eval q.start q.ctrl q.end_ t))
  rw [ha, C15_actual]
  simp only [hfq]

theorem CubicBezier.generic_arclen (c : CubicBezier P) (n : ℕ) :
    c.generic.arclen n = c.arclen n := by
  obtain ⟨f, hf, ha⟩ := C39_actual c.generic (by norm_num)
  have hfc : ∀ t, f t = c.eval t := fun t =>
    Option.some.inj ((hf t).symm.trans (C32_cubic_eval c.start c.ctrl1 c.ctrl2 c.end_ t))
  rw [ha, C26_actual]
  simp only [hfc]

/-- **C128** for quadratic and cubic curves that are not a single point: for every `s` between 0 and
the length `L` of the curve, exactly one `t` in [0, 1] cuts off a first piece of length `s`. -/
theorem C128_specialised (q : QuadraticBezier P) (c : CubicBezier P) :
    (q.ctrl ≠ q.start ∨ q.end_ ≠ q.start → ∃ A : ℕ → ℝ, ∃ L, (∀ n, q.arclen n = some (A n)) ∧
      Filter.Tendsto A Filter.atTop (nhds L) ∧ ∀ s, 0 ≤ s → s ≤ L → ∃! t : ℝ, 0 ≤ t ∧ t ≤ 1 ∧
        ∃ B : ℕ → ℝ, (∀ n, (q.split t).1.arclen n = some (B n)) ∧
          Filter.Tendsto B Filter.atTop (nhds s)) ∧
    (c.ctrl1 ≠ c.start ∨ c.ctrl2 ≠ c.start ∨ c.end_ ≠ c.start → ∃ A : ℕ → ℝ, ∃ L,
      (∀ n, c.arclen n = some (A n)) ∧
      Filter.Tendsto A Filter.atTop (nhds L) ∧ ∀ s, 0 ≤ s → s ≤ L → ∃! t : ℝ, 0 ≤ t ∧ t ≤ 1 ∧
        ∃ B : ℕ → ℝ, (∀ n, (c.split t).1.arclen n = some (B n)) ∧
          Filter.Tendsto B Filter.atTop (nhds s)) := by
  constructor
  · intro h
    have hb : ∃ k, q.generic.control_points k ≠ q.generic.control_points ⟨0, by norm_num⟩ := by
      rcases h with h | h
      exacts [⟨1, h⟩, ⟨2, h⟩]
    obtain ⟨L, ⟨A, hA, hL⟩, hex⟩ := C128_exists q.generic (by norm_num)
    have key : ∀ t s, LengthUpTo q.generic t s ↔ ∃ B : ℕ → ℝ,
        (∀ n, (q.split t).1.arclen n = some (B n)) ∧ Filter.Tendsto B Filter.atTop (nhds s) := by
      intro t s
      constructor
      · rintro ⟨l, r, hs, B, hB, hs'⟩
        rw [QuadraticBezier.generic_split] at hs
        cases hs
        exact ⟨B, fun n => by rw [← QuadraticBezier.generic_arclen, hB], hs'⟩
      · rintro ⟨B, hB, hs'⟩
        exact ⟨_, _, QuadraticBezier.generic_split q t, B,
          fun n => by rw [QuadraticBezier.generic_arclen, hB], hs'⟩
    refine ⟨A, L, fun n => by rw [← QuadraticBezier.generic_arclen, hA], hL, fun s s0 s1 => ?_⟩
    obtain ⟨t, t0, t1, ht⟩ := hex s s0 s1
    exact ⟨t, ⟨t0, t1, (key t s).1 ht⟩, fun t' ⟨h0, _, h2⟩ =>
      (C128_order q.generic (by norm_num) hb h0 t0 ((key t' s).2 h2) ht).2.2 rfl⟩
  · intro h
    have hb : ∃ k, c.generic.control_points k ≠ c.generic.control_points ⟨0, by norm_num⟩ := by
      rcases h with h | h | h
      exacts [⟨1, h⟩, ⟨2, h⟩, ⟨3, h⟩]
    obtain ⟨L, ⟨A, hA, hL⟩, hex⟩ := C128_exists c.generic (by norm_num)
    have key : ∀ t s, LengthUpTo c.generic t s ↔ ∃ B : ℕ → ℝ,
        (∀ n, (c.split t).1.arclen n = some (B n)) ∧ Filter.Tendsto B Filter.atTop (nhds s) := by
      intro t s
      constructor
      · rintro ⟨l, r, hs, B, hB, hs'⟩
        rw [CubicBezier.generic_split] at hs
        cases hs
        exact ⟨B, fun n => by rw [← CubicBezier.generic_arclen, hB], hs'⟩
      · rintro ⟨B, hB, hs'⟩
        exact ⟨_, _, CubicBezier.generic_split c t, B,
          fun n => by rw [CubicBezier.generic_arclen, hB], hs'⟩
    refine ⟨A, L, fun n => by rw [← CubicBezier.generic_arclen, hA], hL, fun s s0 s1 => ?_⟩
    obtain ⟨t, t0, t1, ht⟩ := hex s s0 s1
    exact ⟨t, ⟨t0, t1, (key t s).1 ht⟩, fun t' ⟨h0, _, h2⟩ =>
      (C128_order c.generic (by norm_num) hb h0 t0 ((key t' s).2 h2) ht).2.2 rfl⟩

/-- The hypotheses are met: a parabola has a walk along it, and there are moments at which the walk
has a velocity. -/
example : ∃ (b : Bezier (PointN ℝ 2) 3) (L : ℝ) (walk : ℝ → PointN ℝ 2),
    (∃ k, b.control_points k ≠ b.control_points ⟨0, by norm_num⟩) ∧ HasLength b L ∧
    (∀ s, 0 ≤ s → s ≤ L → ∃ t, 0 ≤ t ∧ t ≤ 1 ∧ LengthUpTo b t s ∧ b.eval t = some (walk s)) ∧
    ∃ s t d v, 0 < s ∧ s < L ∧ 0 ≤ t ∧ LengthUpTo b t s ∧
      Bezier.derivative (S := ℝ) b = some d ∧ d.eval t = some v ∧ v ≠ Point.default := by
  have hb : ∃ k, (⟨![pt2 0 0, pt2 1 1, pt2 2 0]⟩ : Bezier (PointN ℝ 2) 3).control_points k
      ≠ (⟨![pt2 0 0, pt2 1 1, pt2 2 0]⟩ : Bezier (PointN ℝ 2) 3).control_points ⟨0, by norm_num⟩ :=
    ⟨1, fun h => by
      have := congrArg (fun p => coord p 0) h
      simp at this⟩
  obtain ⟨L, hL, hex⟩ := C128_exists (⟨![pt2 0 0, pt2 1 1, pt2 2 0]⟩ : Bezier (PointN ℝ 2) 3)
    (by norm_num)
  obtain ⟨d, f, g, hd, hf, hg, hfg⟩ := bezier_derivative_curve
    (⟨![pt2 0 0, pt2 1 1, pt2 2 0]⟩ : Bezier (PointN ℝ 2) 3) (by norm_num)
  choose! τ hτ using hex
  refine ⟨_, L, fun s => f (τ s), hb, hL, fun s h0 h1 => ?_, ?_⟩
  · obtain ⟨a, b, c⟩ := hτ s h0 h1
    exact ⟨τ s, a, b, c, hf _⟩
  · have sm := lengthTo_strictMono _ (by norm_num) hb
    have z := lengthTo_zero (⟨![pt2 0 0, pt2 1 1, pt2 2 0]⟩ : Bezier (PointN ℝ 2) 3).control_points
    refine ⟨_, 1 / 2, d, g (1 / 2), ?_, ?_, by norm_num, (lengthUpTo_iff _ (by norm_num) (by norm_num) _).2 rfl,
      hd, hg _, fun h => ?_⟩
    · have := sm (show (0 : ℝ) < 1 / 2 by norm_num)
      rw [z] at this
      exact this
    · rw [(hasLength_iff _ (by norm_num) L).1 hL]
      exact sm (show (1 / 2 : ℝ) < 1 by norm_num)
    · have h1 := hfg (1 / 2) 0 (show 0 < 2 by norm_num)
      have h2 : ∀ u, coord (f u) 0 = 2 * u := fun u => by
        have e := (hf u).symm.trans (C32_quadratic_eval (pt2 0 0) (pt2 1 1) (pt2 2 0) u)
        rw [Option.some.inj e, C10_eval]
        simp [QuadraticBezier.new]
        ring
      simp only [h2] at h1
      have h3 := h1.unique ((hasDerivAt_id (1 / 2 : ℝ)).const_mul 2)
      rw [h, LawfulPoint.coord_default] at h3
      norm_num at h3

end Stroke
