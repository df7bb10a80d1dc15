import Verif.Props.Subdivision
import Verif.Props.ArcLengthShape
import Verif.Props.Line

/-!
# A flat curve may be replaced by its baseline (C119)

`is_linear(tol)` keeps the curve within `tol` of its baseline (C17, C28).  Here: the other
direction, every point of the baseline is within `tol` of the curve, so drawing the baseline draws
nothing that is not there; and the length of the baseline is the length of the curve up to a
multiple of `tol`.
-/

namespace Stroke

/-- A path from `a` to `b` which stays within `r` of the segment passes within `r` of every point
of the segment: the foot of the perpendicular moves continuously from one end to the other. -/
theorem path_covers_segment {E : Type*} [NormedAddCommGroup E] [InnerProductSpace ℝ E]
    {γ : ℝ → E} (hc : Continuous γ) {r : ℝ}
    (hr : ∀ t, 0 ≤ t → t ≤ 1 → ∃ s : ℝ, 0 ≤ s ∧ s ≤ 1 ∧ ‖γ 0 + s • (γ 1 - γ 0) - γ t‖ ≤ r)
    {s : ℝ} (h0 : 0 ≤ s) (h1 : s ≤ 1) :
    ∃ t, 0 ≤ t ∧ t ≤ 1 ∧ ‖γ 0 + s • (γ 1 - γ 0) - γ t‖ ≤ r := by
  by_cases hd : γ 1 - γ 0 = 0
  · obtain ⟨s', _, _, h⟩ := hr 0 le_rfl zero_le_one
    refine ⟨0, le_rfl, zero_le_one, ?_⟩
    rw [hd, smul_zero] at h ⊢
    exact h
  have hpos : 0 < ‖γ 1 - γ 0‖ ^ 2 := by positivity
  have hfoot : Continuous fun t => inner ℝ (γ t - γ 0) (γ 1 - γ 0) := by fun_prop
  have hmem : s * ‖γ 1 - γ 0‖ ^ 2 ∈
      Set.Icc (inner ℝ (γ 0 - γ 0) (γ 1 - γ 0)) (inner ℝ (γ 1 - γ 0) (γ 1 - γ 0)) := by
    rw [sub_self, inner_zero_left, real_inner_self_eq_norm_sq]
    constructor
    · positivity
    · nlinarith
  obtain ⟨t, ⟨t0, t1⟩, ht⟩ := intermediate_value_Icc zero_le_one hfoot.continuousOn hmem
  obtain ⟨s', _, _, h⟩ := hr t t0 t1
  refine ⟨t, t0, t1, le_trans ?_ h⟩
  -- `s` is the foot of the perpendicular from `γ t`
  have hperp : inner ℝ (γ 0 + s • (γ 1 - γ 0) - γ t) (γ 1 - γ 0) = (0 : ℝ) := by
    have e : γ 0 + s • (γ 1 - γ 0) - γ t = s • (γ 1 - γ 0) - (γ t - γ 0) := by abel
    rw [e, inner_sub_left, real_inner_smul_left, real_inner_self_eq_norm_sq]
    simp only at ht
    rw [ht, sub_self]
  have e : γ 0 + s' • (γ 1 - γ 0) - γ t
      = (γ 0 + s • (γ 1 - γ 0) - γ t) + (s' - s) • (γ 1 - γ 0) := by module
  have hsq : ‖γ 0 + s • (γ 1 - γ 0) - γ t‖ ^ 2 ≤ ‖γ 0 + s' • (γ 1 - γ 0) - γ t‖ ^ 2 := by
    rw [e, norm_add_sq_real, real_inner_smul_right, hperp]
    nlinarith [sq_nonneg ‖(s' - s) • (γ 1 - γ 0)‖]
  exact (sq_le_sq₀ (norm_nonneg _) (norm_nonneg _)).1 hsq

variable {P : Type} [Point ℝ P] [LawfulPoint P]

/-- A curve from `l.start` to `l.end_` which stays within `r` of the segment `l` passes within `r`
of each of its points. -/
theorem curve_covers_segment {f : ℝ → P} (hc : Continuous fun t => toE (f t))
    {l : LineSegment P} (e0 : f 0 = l.start) (e1 : f 1 = l.end_) {r : ℝ}
    (hr : ∀ t, 0 ≤ t → t ≤ 1 → NearSegment l.start l.end_ (f t) r)
    {s : ℝ} (h0 : 0 ≤ s) (h1 : s ≤ 1) :
    ∃ t, 0 ≤ t ∧ t ≤ 1 ∧ pdist (l.eval s) (f t) ≤ r := by
  obtain ⟨t, t0, t1, h⟩ := path_covers_segment hc (r := r) (fun t t0 t1 => by
    obtain ⟨d, hd, hdr⟩ := hr t t0 t1
    rw [segmentDistances_eq] at hd
    obtain ⟨s, s0, s1, rfl⟩ := hd
    exact ⟨s, s0, s1, by rw [e0, e1]; exact hdr⟩) h0 h1
  refine ⟨t, t0, t1, ?_⟩
  rw [pdist_eq_norm]
  rw [e0, e1] at h
  refine le_of_eq_of_le ?_ h
  congr 1
  simp only [LineSegment.eval, toE_add, toE_mul, toE_sub]

theorem QuadraticBezier.toE_eval (q : QuadraticBezier P) (t : ℝ) :
    toE (q.eval t) = (1 - t) ^ 2 • toE q.start + (2 * t * (1 - t)) • toE q.ctrl
      + t ^ 2 • toE q.end_ := by
  ext i
  simp [C10_eval]

theorem CubicBezier.toE_eval (c : CubicBezier P) (t : ℝ) :
    toE (c.eval t) = (1 - t) ^ 3 • toE c.start + (3 * t * (1 - t) ^ 2) • toE c.ctrl1
      + (3 * t ^ 2 * (1 - t)) • toE c.ctrl2 + t ^ 3 • toE c.end_ := by
  ext i
  simp [C20_eval]

/-- **C119**: a quadratic curve which passes `is_linear(tol)` comes within `tol` of every point
of its baseline. -/
theorem C119_linear_quadratic (q : QuadraticBezier P) (tol : ℝ) (h : q.isLinear tol = some true)
    {s : ℝ} (h0 : 0 ≤ s) (h1 : s ≤ 1) :
    ∃ t, 0 ≤ t ∧ t ≤ 1 ∧ pdist (q.baseline.eval s) (q.eval t) ≤ tol :=
  curve_covers_segment (f := fun t => q.eval t) (l := q.baseline)
    (by simp only [QuadraticBezier.toE_eval]; fun_prop)
    (C10_endpoints q).1 (C10_endpoints q).2 (fun t => C17_is_linear_sound q tol h t) h0 h1

/-- **C119**: the same for cubic curves. -/
theorem C119_linear_cubic (c : CubicBezier P) (tol : ℝ) (h : c.isLinear tol = some true)
    {s : ℝ} (h0 : 0 ≤ s) (h1 : s ≤ 1) :
    ∃ t, 0 ≤ t ∧ t ≤ 1 ∧ pdist (c.baseline.eval s) (c.eval t) ≤ tol :=
  curve_covers_segment (f := fun t => c.eval t) (l := c.baseline)
    (by simp only [CubicBezier.toE_eval]; fun_prop)
    (C20_endpoints c).1 (C20_endpoints c).2 (fun t => C28_is_linear_sound c tol h t) h0 h1

/-- Every point of a segment is at most half its length from one of its ends. -/
theorem near_end (l : LineSegment P) {s r : ℝ} (h0 : 0 ≤ s) (h1 : s ≤ 1)
    (hr : pdist l.start l.end_ ≤ r) :
    pdist (l.eval s) l.start ≤ r / 2 ∨ pdist (l.eval s) l.end_ ≤ r / 2 := by
  rw [pdist_eq_norm] at hr
  have e1 : pdist (l.eval s) l.start = s * ‖toE l.start - toE l.end_‖ := by
    rw [pdist_eq_norm, norm_sub_rev (toE l.start), ← Real.norm_of_nonneg h0, ← norm_smul,
      Real.norm_of_nonneg h0]
    congr 1
    simp only [LineSegment.eval, toE_add, toE_mul, toE_sub]
    module
  have e2 : pdist (l.eval s) l.end_ = (1 - s) * ‖toE l.start - toE l.end_‖ := by
    have h1' : 0 ≤ 1 - s := by linarith
    rw [pdist_eq_norm, ← Real.norm_of_nonneg h1', ← norm_smul]
    congr 1
    simp only [LineSegment.eval, toE_add, toE_mul, toE_sub]
    module
  have hn := norm_nonneg (toE l.start - toE l.end_)
  rw [e1, e2]
  rcases le_total s (1 / 2) with h | h
  · left; nlinarith
  · right; nlinarith

/-- **C119**: the baseline of a curve which passes `is_a_point(tol)` is within `tol / 2` of the
curve (of one of its end points, in fact). -/
theorem C119_point (q : QuadraticBezier P) (c : CubicBezier P) (tol : ℝ) {s : ℝ} (h0 : 0 ≤ s)
    (h1 : s ≤ 1) :
    (q.isAPoint tol = true → ∃ t, 0 ≤ t ∧ t ≤ 1 ∧
      pdist (q.baseline.eval s) (q.eval t) ≤ |tol| / 2) ∧
    (c.isAPoint tol = true → ∃ t, 0 ≤ t ∧ t ≤ 1 ∧
      pdist (c.baseline.eval s) (c.eval t) ≤ |tol| / 2) := by
  constructor
  · intro h
    unfold QuadraticBezier.isAPoint at h
    rw [squaredLength_sub, squaredLength_sub, ← sq] at h
    simp only [le_real, Bool.and_eq_true, decide_eq_true_eq] at h
    have he := abs_le_abs_of_sq_le h.1 (pdist_nonneg _ _)
    rcases near_end q.baseline h0 h1 he with h | h
    · exact ⟨0, le_rfl, zero_le_one, by rw [(C10_endpoints q).1]; exact h⟩
    · exact ⟨1, zero_le_one, le_rfl, by rw [(C10_endpoints q).2]; exact h⟩
  · intro h
    unfold CubicBezier.isAPoint at h
    rw [squaredLength_sub, squaredLength_sub, squaredLength_sub, ← sq] at h
    simp only [le_real, Bool.and_eq_true, decide_eq_true_eq] at h
    have he := abs_le_abs_of_sq_le h.1.1 (pdist_nonneg _ _)
    rcases near_end c.baseline h0 h1 he with h | h
    · exact ⟨0, le_rfl, zero_le_one, by rw [(C20_endpoints c).1]; exact h⟩
    · exact ⟨1, zero_le_one, le_rfl, by rw [(C20_endpoints c).2]; exact h⟩

/-- **C119**: every point of the polyline obtained by flattening with `split(0.5)` until
`is_linear(tol)` or `is_a_point(tol)` holds is within `tol` of the curve.  (That the curve is
close to the polyline, and how deep the recursion goes, is C66.) -/
theorem C119_flatten_quadratic (q : QuadraticBezier P) (tol : ℝ) (n : ℕ) (htol : 0 ≤ tol)
    (hstop : ∀ p ∈ adaptive QuadraticBezier.halve (QuadraticBezier.flat tol) n q,
      p.isLinear tol = some true ∨ p.isAPoint tol = true) :
    ∀ p ∈ adaptive QuadraticBezier.halve (QuadraticBezier.flat tol) n q,
      ∀ s, 0 ≤ s → s ≤ 1 → ∃ t, 0 ≤ t ∧ t ≤ 1 ∧ pdist (p.baseline.eval s) (q.eval t) ≤ tol := by
  intro p hp s s0 s1
  obtain ⟨a, b, ha, hab, hb, e⟩ := adaptive_part (eval := fun q s => q.eval s)
    (stop := QuadraticBezier.flat tol) (fun q s => (q.halve_eval s).1)
    (fun q s => (q.halve_eval s).2) n q p hp
  have key : ∃ t, 0 ≤ t ∧ t ≤ 1 ∧ pdist (p.baseline.eval s) (p.eval t) ≤ tol := by
    rcases hstop p hp with h | h
    · exact C119_linear_quadratic p tol h s0 s1
    · obtain ⟨t, t0, t1, ht⟩ := (C119_point p (CubicBezier.new p.start p.start p.start p.start)
        tol s0 s1).1 h
      rw [abs_of_nonneg htol] at ht
      exact ⟨t, t0, t1, by linarith⟩
  obtain ⟨t, t0, t1, ht⟩ := key
  refine ⟨a + (b - a) * t, by nlinarith, by nlinarith, ?_⟩
  have this : p.eval t = q.eval (a + (b - a) * t) := e t
  rw [← this]
  exact ht

/-- **C119**: the same for cubic curves. -/
theorem C119_flatten_cubic (c : CubicBezier P) (tol : ℝ) (n : ℕ) (htol : 0 ≤ tol)
    (hstop : ∀ p ∈ adaptive CubicBezier.halve (CubicBezier.flat tol) n c,
      p.isLinear tol = some true ∨ p.isAPoint tol = true) :
    ∀ p ∈ adaptive CubicBezier.halve (CubicBezier.flat tol) n c,
      ∀ s, 0 ≤ s → s ≤ 1 → ∃ t, 0 ≤ t ∧ t ≤ 1 ∧ pdist (p.baseline.eval s) (c.eval t) ≤ tol := by
  intro p hp s s0 s1
  obtain ⟨a, b, ha, hab, hb, e⟩ := adaptive_part (eval := fun c s => c.eval s)
    (stop := CubicBezier.flat tol) (fun c s => (c.halve_eval s).1)
    (fun c s => (c.halve_eval s).2) n c p hp
  have key : ∃ t, 0 ≤ t ∧ t ≤ 1 ∧ pdist (p.baseline.eval s) (p.eval t) ≤ tol := by
    rcases hstop p hp with h | h
    · exact C119_linear_cubic p tol h s0 s1
    · obtain ⟨t, t0, t1, ht⟩ := (C119_point (QuadraticBezier.new p.start p.start p.start) p
        tol s0 s1).2 h
      rw [abs_of_nonneg htol] at ht
      exact ⟨t, t0, t1, by linarith⟩
  obtain ⟨t, t0, t1, ht⟩ := key
  refine ⟨a + (b - a) * t, by nlinarith, by nlinarith, ?_⟩
  have this : p.eval t = c.eval (a + (b - a) * t) := e t
  rw [← this]
  exact ht

/-! ### Lengths -/

/-- A polyline through parameters `0, 1/n, …, 1` of a curve which advances like `g` along a
segment of length `d` and deviates at speed at most `v`. -/
theorem polyline_along {f : ℝ → P} {g : ℝ → ℝ} {d v : ℝ} (hd : 0 ≤ d) (hv : 0 ≤ v)
    (hg0 : g 0 = 0) (hg1 : g 1 = 1) (hg : ∀ a b, 0 ≤ a → a ≤ b → b ≤ 1 → g a ≤ g b)
    (hf : ∀ a b, 0 ≤ a → a ≤ b → b ≤ 1 → pdist (f a) (f b) ≤ (g b - g a) * d + v * (b - a))
    (n : ℕ) : polylineLength (fun i : ℕ => f ((i : ℝ) / n)) 1 n ≤ d + v := by
  unfold polylineLength
  rcases Nat.eq_zero_or_pos n with rfl | hn
  · simp only [Finset.Ico_eq_empty_of_le (Nat.zero_le 1), Finset.sum_empty]
    linarith
  have n0 : (0 : ℝ) < n := by exact_mod_cast hn
  have hle : ∀ i ∈ Finset.Ico 1 n, pdist (f ((i : ℝ) / n)) (f (((i + 1 : ℕ) : ℝ) / n))
      ≤ (g (((i + 1 : ℕ) : ℝ) / n) * d + v * (((i + 1 : ℕ) : ℝ) / n))
        - (g ((i : ℝ) / n) * d + v * ((i : ℝ) / n)) := by
    intro i hi
    rw [Finset.mem_Ico] at hi
    have h1 : ((i + 1 : ℕ) : ℝ) / n ≤ 1 := by
      rw [div_le_one n0]; exact_mod_cast hi.2
    have h2 : (i : ℝ) / n ≤ ((i + 1 : ℕ) : ℝ) / n := by
      apply div_le_div_of_nonneg_right _ n0.le
      exact_mod_cast Nat.le_succ i
    have := hf _ _ (by positivity) h2 h1
    linarith
  refine (Finset.sum_le_sum hle).trans ?_
  rw [Finset.sum_Ico_sub (fun i : ℕ => g ((i : ℝ) / n) * d + v * ((i : ℝ) / n)) hn]
  have h1 : (1 : ℝ) / n ≤ 1 := by rw [div_le_one n0]; exact_mod_cast hn
  have h2 := hg 0 (1 / n) le_rfl (by positivity) h1
  rw [hg0] at h2
  rw [div_self n0.ne', hg1, Nat.cast_one]
  have h3 : 0 ≤ g (1 / n) * d := by positivity
  have h4 : 0 ≤ v * (1 / n) := by positivity
  linarith

/-- **C119**: a quadratic curve which passes `is_linear(tol)` is at most `2 tol` longer than its
baseline, and so is every value `arclen(n)`; it is never shorter. -/
theorem C119_length_quadratic (q : QuadraticBezier P) (tol : ℝ) (h : q.isLinear tol = some true) :
    (∀ n, ∃ x, q.arclen n = some x ∧ x ≤ pdist q.start q.end_ + 2 * tol) ∧
    pdist q.start q.end_ ≤ arcLength (Point.dim P) (fun t i => coord (q.derivative.eval t) i) ∧
    arcLength (Point.dim P) (fun t i => coord (q.derivative.eval t) i)
      ≤ pdist q.start q.end_ + 2 * tol := by
  obtain ⟨d, hd, hmem⟩ := C07_never_below q.baseline q.ctrl
  rw [isLinear_eq q tol d hd] at h
  have hd' : d ≤ tol := by simp at h; exact h.2
  rw [segmentDistances_eq] at hmem
  obtain ⟨s, hs0, hs1, rfl⟩ := hmem
  have htol : 0 ≤ tol := (norm_nonneg _).trans hd'
  have hup : ∀ n : ℕ, polylineLength (fun i : ℕ => q.eval ((i : ℝ) / n)) 1 n
      ≤ pdist q.start q.end_ + 2 * tol := by
    refine polyline_along (f := fun t => q.eval t) (g := fun t => 2 * t * (1 - t) * s + t ^ 2)
      (pdist_nonneg _ _) (by positivity) (by ring) (by ring) ?_ ?_
    · intro a b a0 hab b1
      have e : 2 * b * (1 - b) * s + b ^ 2 - (2 * a * (1 - a) * s + a ^ 2)
          = (b - a) * ((1 - s) * (a + b) + s * ((1 - a) + (1 - b))) := by ring
      have : 0 ≤ (b - a) * ((1 - s) * (a + b) + s * ((1 - a) + (1 - b))) := by
        have := sub_nonneg.2 hab
        have := sub_nonneg.2 b1
        have := sub_nonneg.2 (hab.trans b1)
        have := sub_nonneg.2 hs1
        have := a0.trans hab
        positivity
      linarith
    · intro a b a0 hab b1
      rw [pdist_eq_norm, pdist_eq_norm, QuadraticBezier.toE_eval, QuadraticBezier.toE_eval,
        norm_sub_rev]
      have e : ((1 - b) ^ 2 • toE q.start + (2 * b * (1 - b)) • toE q.ctrl + b ^ 2 • toE q.end_)
          - ((1 - a) ^ 2 • toE q.start + (2 * a * (1 - a)) • toE q.ctrl + a ^ 2 • toE q.end_)
          = (2 * b * (1 - b) * s + b ^ 2 - (2 * a * (1 - a) * s + a ^ 2)) •
              (toE q.end_ - toE q.start)
            + (2 * (b - a) * (1 - a - b)) •
              (toE q.ctrl - (toE q.start + s • (toE q.end_ - toE q.start))) := by
        module
      rw [e]
      have g0 : 0 ≤ 2 * b * (1 - b) * s + b ^ 2 - (2 * a * (1 - a) * s + a ^ 2) := by
        have e : 2 * b * (1 - b) * s + b ^ 2 - (2 * a * (1 - a) * s + a ^ 2)
          = (b - a) * ((1 - s) * (a + b) + s * ((1 - a) + (1 - b))) := by ring
        rw [e]
        have := sub_nonneg.2 hab
        have := sub_nonneg.2 b1
        have := sub_nonneg.2 (hab.trans b1)
        have := sub_nonneg.2 hs1
        have := a0.trans hab
        positivity
      refine (norm_add_le _ _).trans (add_le_add (le_of_eq ?_) ?_)
      · rw [norm_smul, Real.norm_of_nonneg g0, norm_sub_rev]
      · rw [norm_smul, norm_sub_rev]
        have h1 : ‖2 * (b - a) * (1 - a - b)‖ ≤ 2 * (b - a) := by
          rw [Real.norm_eq_abs, abs_mul, abs_of_nonneg (show 0 ≤ 2 * (b - a) by linarith)]
          have : |1 - a - b| ≤ 1 := by rw [abs_le]; constructor <;> linarith
          nlinarith
        calc _ ≤ 2 * (b - a) * tol := mul_le_mul h1 hd' (norm_nonneg _) (by linarith)
          _ = _ := by ring
  obtain ⟨L, hL, ⟨K, hK⟩, ht⟩ := C15_partial q
  refine ⟨fun n => ⟨_, C15_actual q n, hup n⟩, ?_, ?_⟩
  · have hLt : Filter.Tendsto (fun n : ℕ => pdist (q.eval (1 / n : ℝ)) q.end_) Filter.atTop
        (nhds (pdist q.start q.end_)) := by
      have hc : Continuous fun t : ℝ => pdist (q.eval t) q.end_ := by
        simp only [pdist_eq_norm, QuadraticBezier.toE_eval]
        fun_prop
      have := (hc.tendsto 0).comp tendsto_one_div_atTop_nhds_zero_nat
      simp only [(C10_endpoints q).1] at this
      exact this
    refine le_of_tendsto_of_tendsto hLt ht (Filter.eventually_atTop.2 ⟨1, fun n hn => ?_⟩)
    obtain ⟨x, hx, hle⟩ := (C71_at_least_chord q (CubicBezier.new q.start q.start q.start q.start)
      n hn).1
    rw [hL n] at hx
    cases hx
    exact hle
  · refine le_of_tendsto' ht fun n => ?_
    have h1 := hL n
    rw [C15_actual q n, Option.some.injEq] at h1
    rw [← h1]
    exact hup n

/-- The advance along the baseline of a cubic curve whose control points project into it. -/
theorem cubic_advance {s₁ s₂ a b : ℝ} (h1 : 0 ≤ s₁) (h1' : s₁ ≤ 1) (h2 : 0 ≤ s₂) (h2' : s₂ ≤ 1)
    (a0 : 0 ≤ a) (hab : a ≤ b) (b1 : b ≤ 1) :
    3 * a * (1 - a) ^ 2 * s₁ + 3 * a ^ 2 * (1 - a) * s₂ + a ^ 3
      ≤ 3 * b * (1 - b) ^ 2 * s₁ + 3 * b ^ 2 * (1 - b) * s₂ + b ^ 3 := by
  have hba := sub_nonneg.2 hab
  have b0 := a0.trans hab
  have hb1 := sub_nonneg.2 b1
  have ha1 := sub_nonneg.2 (hab.trans b1)
  have hs1 := sub_nonneg.2 h1'
  have hs2 := sub_nonneg.2 h2'
  -- affine in each of the two parameters: enough to look at the corners
  have g00 : 0 ≤ b ^ 3 - a ^ 3 := by
    have : b ^ 3 - a ^ 3 = (b - a) * (a ^ 2 + a * b + b ^ 2) := by ring
    rw [this]; positivity
  have g10 : 0 ≤ (3 * b * (1 - b) ^ 2 + b ^ 3) - (3 * a * (1 - a) ^ 2 + a ^ 3) := by
    have : (3 * b * (1 - b) ^ 2 + b ^ 3) - (3 * a * (1 - a) ^ 2 + a ^ 3)
        = (b - a) * ((2 * (a - 1 / 2) + (b - 1 / 2)) ^ 2 + 3 * (b - 1 / 2) ^ 2) := by ring
    rw [this]; positivity
  have g01 : 0 ≤ (3 * b ^ 2 * (1 - b) + b ^ 3) - (3 * a ^ 2 * (1 - a) + a ^ 3) := by
    have : (3 * b ^ 2 * (1 - b) + b ^ 3) - (3 * a ^ 2 * (1 - a) + a ^ 3)
        = (b - a) * (2 * a * (1 - a) + 2 * b * (1 - b) + a * (1 - b) + b * (1 - a)) := by ring
    rw [this]; positivity
  have g11 : 0 ≤ (1 - a) ^ 3 - (1 - b) ^ 3 := by
    have : (1 - a) ^ 3 - (1 - b) ^ 3
        = (b - a) * ((1 - a) ^ 2 + (1 - a) * (1 - b) + (1 - b) ^ 2) := by ring
    rw [this]; positivity
  have e : 3 * b * (1 - b) ^ 2 * s₁ + 3 * b ^ 2 * (1 - b) * s₂ + b ^ 3
      - (3 * a * (1 - a) ^ 2 * s₁ + 3 * a ^ 2 * (1 - a) * s₂ + a ^ 3)
      = (1 - s₁) * (1 - s₂) * (b ^ 3 - a ^ 3)
        + s₁ * (1 - s₂) * ((3 * b * (1 - b) ^ 2 + b ^ 3) - (3 * a * (1 - a) ^ 2 + a ^ 3))
        + (1 - s₁) * s₂ * ((3 * b ^ 2 * (1 - b) + b ^ 3) - (3 * a ^ 2 * (1 - a) + a ^ 3))
        + s₁ * s₂ * ((1 - a) ^ 3 - (1 - b) ^ 3) := by ring
  have : 0 ≤ 3 * b * (1 - b) ^ 2 * s₁ + 3 * b ^ 2 * (1 - b) * s₂ + b ^ 3
      - (3 * a * (1 - a) ^ 2 * s₁ + 3 * a ^ 2 * (1 - a) * s₂ + a ^ 3) := by
    rw [e]; positivity
  linarith

/-- The two inner basis functions together move at most at speed 3. -/
theorem cubic_wobble {a b : ℝ} (a0 : 0 ≤ a) (hab : a ≤ b) (b1 : b ≤ 1) :
    |3 * b * (1 - b) ^ 2 - 3 * a * (1 - a) ^ 2| + |3 * b ^ 2 * (1 - b) - 3 * a ^ 2 * (1 - a)|
      ≤ 3 * (b - a) := by
  have hba := sub_nonneg.2 hab
  have b0 := a0.trans hab
  have ha1 := hab.trans b1
  have e1 : (3 * b * (1 - b) ^ 2 - 3 * a * (1 - a) ^ 2) + (3 * b ^ 2 * (1 - b) - 3 * a ^ 2 * (1 - a))
      = 3 * (b - a) * (1 - a - b) := by ring
  have e2 : (3 * b * (1 - b) ^ 2 - 3 * a * (1 - a) ^ 2) - (3 * b ^ 2 * (1 - b) - 3 * a ^ 2 * (1 - a))
      = 3 * (b - a) * (1 - 3 * (a + b) + 2 * (a ^ 2 + a * b + b ^ 2)) := by ring
  have k1 : 1 - 3 * (a + b) + 2 * (a ^ 2 + a * b + b ^ 2) ≤ 1 := by nlinarith
  have k2 : -1 ≤ 1 - 3 * (a + b) + 2 * (a ^ 2 + a * b + b ^ 2) := by
    nlinarith [sq_nonneg (a - b), sq_nonneg (a + b - 1)]
  have l1 : 3 * (b - a) * (1 - a - b) ≤ 3 * (b - a) := by nlinarith
  have l2 : -(3 * (b - a)) ≤ 3 * (b - a) * (1 - a - b) := by nlinarith
  have l3 : 3 * (b - a) * (1 - 3 * (a + b) + 2 * (a ^ 2 + a * b + b ^ 2)) ≤ 3 * (b - a) :=
    mul_le_of_le_one_right (by linarith) k1
  have l4 : -(3 * (b - a)) ≤ 3 * (b - a) * (1 - 3 * (a + b) + 2 * (a ^ 2 + a * b + b ^ 2)) := by
    have := mul_le_mul_of_nonneg_left k2 (show 0 ≤ 3 * (b - a) by linarith)
    linarith
  rw [← e1] at l1 l2
  rw [← e2] at l3 l4
  rcases abs_cases (3 * b * (1 - b) ^ 2 - 3 * a * (1 - a) ^ 2) with ⟨h, _⟩ | ⟨h, _⟩ <;>
  rcases abs_cases (3 * b ^ 2 * (1 - b) - 3 * a ^ 2 * (1 - a)) with ⟨h', _⟩ | ⟨h', _⟩ <;>
  · rw [h, h']
    linarith only [l1, l2, l3, l4]

/-- **C119**: a cubic curve which passes `is_linear(tol)` is at most `3 tol` longer than its
baseline, and so is every value `arclen(n)`; it is never shorter. -/
theorem C119_length_cubic (c : CubicBezier P) (tol : ℝ) (h : c.isLinear tol = some true) :
    (∀ n, ∃ x, c.arclen n = some x ∧ x ≤ pdist c.start c.end_ + 3 * tol) ∧
    pdist c.start c.end_ ≤ arcLength (Point.dim P) (fun t i => coord (c.derivative.eval t) i) ∧
    arcLength (Point.dim P) (fun t i => coord (c.derivative.eval t) i)
      ≤ pdist c.start c.end_ + 3 * tol := by
  obtain ⟨d1, hd1, hm1⟩ := C07_never_below c.baseline c.ctrl1
  obtain ⟨d2, hd2, hm2⟩ := C07_never_below c.baseline c.ctrl2
  rw [cubic_isLinear_eq c tol d1 d2 hd1 hd2] at h
  simp at h
  obtain ⟨-, ht1, ht2⟩ := h
  rw [segmentDistances_eq] at hm1 hm2
  obtain ⟨s₁, hs0, hs1, rfl⟩ := hm1
  obtain ⟨s₂, hs0', hs1', rfl⟩ := hm2
  have htol : 0 ≤ tol := (norm_nonneg _).trans ht1
  have hup : ∀ n : ℕ, polylineLength (fun i : ℕ => c.eval ((i : ℝ) / n)) 1 n
      ≤ pdist c.start c.end_ + 3 * tol := by
    refine polyline_along (f := fun t => c.eval t)
      (g := fun t => 3 * t * (1 - t) ^ 2 * s₁ + 3 * t ^ 2 * (1 - t) * s₂ + t ^ 3)
      (pdist_nonneg _ _) (by positivity) (by ring) (by ring)
      (fun a b a0 hab b1 => cubic_advance hs0 hs1 hs0' hs1' a0 hab b1) ?_
    intro a b a0 hab b1
    rw [pdist_eq_norm, pdist_eq_norm, CubicBezier.toE_eval, CubicBezier.toE_eval, norm_sub_rev]
    have e : ((1 - b) ^ 3 • toE c.start + (3 * b * (1 - b) ^ 2) • toE c.ctrl1
          + (3 * b ^ 2 * (1 - b)) • toE c.ctrl2 + b ^ 3 • toE c.end_)
        - ((1 - a) ^ 3 • toE c.start + (3 * a * (1 - a) ^ 2) • toE c.ctrl1
          + (3 * a ^ 2 * (1 - a)) • toE c.ctrl2 + a ^ 3 • toE c.end_)
        = (3 * b * (1 - b) ^ 2 * s₁ + 3 * b ^ 2 * (1 - b) * s₂ + b ^ 3
            - (3 * a * (1 - a) ^ 2 * s₁ + 3 * a ^ 2 * (1 - a) * s₂ + a ^ 3)) •
            (toE c.end_ - toE c.start)
          + ((3 * b * (1 - b) ^ 2 - 3 * a * (1 - a) ^ 2) •
              (toE c.ctrl1 - (toE c.start + s₁ • (toE c.end_ - toE c.start)))
            + (3 * b ^ 2 * (1 - b) - 3 * a ^ 2 * (1 - a)) •
              (toE c.ctrl2 - (toE c.start + s₂ • (toE c.end_ - toE c.start)))) := by
      module
    rw [e]
    have g0 := sub_nonneg.2 (cubic_advance hs0 hs1 hs0' hs1' a0 hab b1)
    refine (norm_add_le _ _).trans (add_le_add (le_of_eq ?_) ?_)
    · rw [norm_smul, Real.norm_of_nonneg g0, norm_sub_rev]
    · refine (norm_add_le _ _).trans ?_
      rw [norm_smul, norm_smul, norm_sub_rev (toE c.ctrl1), norm_sub_rev (toE c.ctrl2),
        Real.norm_eq_abs, Real.norm_eq_abs]
      have hw := cubic_wobble a0 hab b1
      have w1 := abs_nonneg (3 * b * (1 - b) ^ 2 - 3 * a * (1 - a) ^ 2)
      have w2 := abs_nonneg (3 * b ^ 2 * (1 - b) - 3 * a ^ 2 * (1 - a))
      have m1 := mul_le_mul_of_nonneg_left ht1 w1
      have m2 := mul_le_mul_of_nonneg_left ht2 w2
      have m3 := mul_le_mul_of_nonneg_right hw htol
      refine (add_le_add m1 m2).trans ?_
      linarith only [m3]
  obtain ⟨L, hL, ⟨K, hK⟩, ht⟩ := C26_partial c
  refine ⟨fun n => ⟨_, C26_actual c n, hup n⟩, ?_, ?_⟩
  · have hLt : Filter.Tendsto (fun n : ℕ => pdist (c.eval (1 / n : ℝ)) c.end_) Filter.atTop
        (nhds (pdist c.start c.end_)) := by
      have hc : Continuous fun t : ℝ => pdist (c.eval t) c.end_ := by
        simp only [pdist_eq_norm, CubicBezier.toE_eval]
        fun_prop
      have := (hc.tendsto 0).comp tendsto_one_div_atTop_nhds_zero_nat
      simp only [(C20_endpoints c).1] at this
      exact this
    refine le_of_tendsto_of_tendsto hLt ht (Filter.eventually_atTop.2 ⟨1, fun n hn => ?_⟩)
    obtain ⟨x, hx, hle⟩ := (C71_at_least_chord (QuadraticBezier.new c.start c.start c.start) c
      n hn).2
    rw [hL n] at hx
    cases hx
    exact hle
  · refine le_of_tendsto' ht fun n => ?_
    have h1 := hL n
    rw [C26_actual c n, Option.some.injEq] at h1
    rw [← h1]
    exact hup n

/-- A flat curve. -/
theorem flat_quadratic_witness : (QuadraticBezier.new (pt2 0 0) (pt2 1 1) (pt2 2 0)).isLinear (1 : ℝ) = some true :=
  C18_partial _ _ C18_partial_hyps.1 C18_partial_hyps.2.1 C18_partial_hyps.2.2

/-- A flat curve. -/
theorem flat_cubic_witness : (CubicBezier.new (pt2 0 0) (pt2 1 1) (pt2 1 1) (pt2 2 0)).isLinear (1 : ℝ) = some true :=
  C28_complete_partial _ _ C18_partial_hyps.1 C18_partial_hyps.2.1 C18_partial_hyps.2.1
    C18_partial_hyps.2.2 C18_partial_hyps.2.2

/-- The theorems apply to the arch over the points 0, 1, 2 of a line. -/
example := C119_linear_quadratic _ _ flat_quadratic_witness (s := 1 / 3) (by norm_num) (by norm_num)
example := C119_linear_cubic _ _ flat_cubic_witness (s := 1 / 3) (by norm_num) (by norm_num)
example := C119_length_quadratic _ _ flat_quadratic_witness
example := C119_length_cubic _ _ flat_cubic_witness

/-- `C119_flatten_quadratic` applies at the depth C66 gives. -/
example := C119_flatten_quadratic _ 1 0 zero_le_one (by
  intro p hp
  simp only [adaptive, List.mem_singleton] at hp
  rw [hp]
  exact Or.inl flat_quadratic_witness)

end Stroke
