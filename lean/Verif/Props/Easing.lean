import Verif.Props.Variation
import Verif.Props.RootsComplete

/-!
# Curves that advance on an axis, and inverting them (C116)

A timing curve is a curve whose control points are sorted on the first axis; it is read by solving
for the parameter on that axis and evaluating there.
-/

namespace Stroke

variable {P : Type} [Point ℝ P] [LawfulPoint P] {N : ℕ}

/-! ### Strict monotonicity -/

theorem bernstein_pos {m k : ℕ} (hk : k ≤ m) {t : ℝ} (h0 : 0 < t) (h1 : t < 1) :
    0 < bernstein m k t := by
  unfold bernstein
  have : (0 : ℝ) < m.choose k := by exact_mod_cast Nat.choose_pos hk
  have : 0 < 1 - t := by linarith
  positivity

theorem bsum_pos {m : ℕ} {x : ℕ → ℝ} (hx : ∀ k ≤ m, 0 ≤ x k) (hpos : ∃ k ≤ m, 0 < x k) {t : ℝ}
    (h0 : 0 < t) (h1 : t < 1) : 0 < bsum m x t := by
  obtain ⟨k, hk, hxk⟩ := hpos
  unfold bsum
  apply Finset.sum_pos'
  · intro j hj
    rw [Finset.mem_range] at hj
    exact mul_nonneg (bernstein_pos (by omega) h0 h1).le (hx j (by omega))
  · exact ⟨k, Finset.mem_range.2 (by omega), mul_pos (bernstein_pos hk h0 h1) hxk⟩

/-- A sum of steps that is positive has a positive step. -/
theorem exists_rise {m : ℕ} {x : ℕ → ℝ} (h : x 0 < x (m + 1)) : ∃ k ≤ m, 0 < x (k + 1) - x k := by
  by_contra hn
  push Not at hn
  have : ∀ j ≤ m + 1, x j ≤ x 0 := by
    intro j
    induction j with
    | zero => intro _; exact le_rfl
    | succ j ih => intro hj; linarith [ih (by omega), hn j (by omega)]
  linarith [this (m + 1) le_rfl]

theorem bsum_strictMono {m : ℕ} {x : ℕ → ℝ} (hx : ∀ k < m, x k ≤ x (k + 1)) (hlt : x 0 < x m) :
    StrictMonoOn (bsum m x) (Set.Icc 0 1) := by
  obtain _ | m := m
  · exact absurd hlt (lt_irrefl _)
  refine strictMonoOn_of_deriv_pos (convex_Icc 0 1) ?_ ?_
  · exact fun t _ => (hasDerivAt_bsum m x t).continuousAt.continuousWithinAt
  · intro t ht
    rw [interior_Icc] at ht
    rw [(hasDerivAt_bsum m x t).deriv]
    refine mul_pos (by positivity) (bsum_pos (fun k hk => ?_) (exists_rise hlt) ht.1 ht.2)
    exact sub_nonneg.2 (hx k (by omega))

/-- **C116**: if the control points do not go back on an axis and the last is ahead of the first,
the curve is strictly increasing on that axis between the parameters 0 and 1. -/
theorem C116_strict (b : Bezier P N) (hN : 1 ≤ N) (i : ℕ)
    (hmono : ∀ j k : Fin N, j ≤ k → coord (b.control_points j) i ≤ coord (b.control_points k) i)
    (hlt : coord (b.control_points ⟨0, hN⟩) i < coord (b.control_points ⟨N - 1, by omega⟩) i)
    {s t : ℝ} (hs : 0 ≤ s) (hst : s < t) (ht : t ≤ 1) :
    ∃ p q, b.eval s = some p ∧ b.eval t = some q ∧ coord p i < coord q i := by
  obtain ⟨p, hp, hpc⟩ := C30_eval b hN s
  obtain ⟨q, hq, hqc⟩ := C30_eval b hN t
  refine ⟨p, q, hp, hq, ?_⟩
  rw [hpc, hqc, bezierCoord_eq_bsum hN, bezierCoord_eq_bsum hN]
  refine bsum_strictMono (fun k hk => ?_) ?_ ⟨hs, by linarith⟩ ⟨by linarith, ht⟩ hst
  · rw [extend_lt b.controlPoints (k := k) (by omega),
      extend_lt b.controlPoints (k := k + 1) (by omega)]
    exact hmono _ _ (by simp [Fin.le_def])
  · rw [extend_lt b.controlPoints (k := 0) (by omega),
      extend_lt b.controlPoints (k := N - 1) (by omega)]
    exact hlt

/-- **C116**: such a curve takes every value from the first to the last at exactly one
parameter in [0, 1]. -/
theorem C116_unique (b : Bezier P N) (hN : 1 ≤ N) (i : ℕ)
    (hmono : ∀ j k : Fin N, j ≤ k → coord (b.control_points j) i ≤ coord (b.control_points k) i)
    (hlt : coord (b.control_points ⟨0, hN⟩) i < coord (b.control_points ⟨N - 1, by omega⟩) i)
    {v : ℝ} (h0 : coord (b.control_points ⟨0, hN⟩) i ≤ v)
    (h1 : v ≤ coord (b.control_points ⟨N - 1, by omega⟩) i) :
    ∃! t : ℝ, 0 ≤ t ∧ t ≤ 1 ∧ ∃ p, b.eval t = some p ∧ coord p i = v := by
  obtain ⟨e0, e1⟩ := C31_endpoints b hN
  let f : ℝ → ℝ := fun t => bezierCoord b.controlPoints t i
  have hf : ∀ t p, b.eval t = some p → coord p i = f t := by
    intro t p hp
    obtain ⟨q, hq, hc⟩ := C30_eval b hN t
    rw [hp] at hq
    cases hq
    exact hc i
  have hcont : Continuous f := by
    have : f = bsum (N - 1) (fun k => coord (extend b.controlPoints k) i) := by
      funext t; exact bezierCoord_eq_bsum hN _ _ _
    rw [this]
    unfold bsum bernstein
    fun_prop
  have f0 := hf 0 _ e0
  have f1 := hf 1 _ e1
  obtain ⟨t, ht, hv⟩ := intermediate_value_Icc (zero_le_one (α := ℝ)) hcont.continuousOn
    (show v ∈ Set.Icc (f 0) (f 1) from ⟨by rw [← f0]; exact h0, by rw [← f1]; exact h1⟩)
  obtain ⟨p, hp, hc⟩ := C30_eval b hN t
  refine ⟨t, ⟨ht.1, ht.2, p, hp, (hc i).trans hv⟩, ?_⟩
  rintro s ⟨s0, s1, q, hq, hqv⟩
  have hpv : coord p i = v := (hc i).trans hv
  rcases lt_trichotomy s t with h | h | h
  · obtain ⟨a, c, ha, hc', hac⟩ := C116_strict b hN i hmono hlt s0 h ht.2
    rw [hq] at ha; rw [hp] at hc'
    cases ha; cases hc'
    linarith
  · exact h
  · obtain ⟨a, c, ha, hc', hac⟩ := C116_strict b hN i hmono hlt ht.1 h s1
    rw [hp] at ha; rw [hq] at hc'
    cases ha; cases hc'
    linarith

/-- **C116** for the cubic type. -/
theorem C116_cubic_unique (c : CubicBezier P) (i : ℕ) (h01 : coord c.start i ≤ coord c.ctrl1 i)
    (h12 : coord c.ctrl1 i ≤ coord c.ctrl2 i) (h23 : coord c.ctrl2 i ≤ coord c.end_ i)
    (hlt : coord c.start i < coord c.end_ i) :
    (∀ s t : ℝ, 0 ≤ s → s < t → t ≤ 1 → coord (c.eval s) i < coord (c.eval t) i) ∧
    ∀ v, coord c.start i ≤ v → v ≤ coord c.end_ i →
      ∃! t : ℝ, 0 ≤ t ∧ t ≤ 1 ∧ coord (c.eval t) i = v := by
  have hm : ∀ j k : Fin 4, j ≤ k →
      coord ((Bezier.new ![c.start, c.ctrl1, c.ctrl2, c.end_]).control_points j) i
        ≤ coord ((Bezier.new ![c.start, c.ctrl1, c.ctrl2, c.end_]).control_points k) i := by
    intro j k hjk
    fin_cases j <;> fin_cases k <;> simp at hjk <;> simp [Bezier.new] <;> linarith
  have he : ∀ t : ℝ, (Bezier.new ![c.start, c.ctrl1, c.ctrl2, c.end_]).eval t = some (c.eval t) :=
    fun t => C32_cubic_eval _ _ _ _ t
  refine ⟨fun s t hs hst ht => ?_, fun v h0 h1 => ?_⟩
  · obtain ⟨p, q, hp, hq, h⟩ := C116_strict (Bezier.new ![c.start, c.ctrl1, c.ctrl2, c.end_])
      (by norm_num) i hm (by simpa [Bezier.new] using hlt) hs hst ht
    rw [he] at hp hq
    cases hp; cases hq
    exact h
  · have := C116_unique (Bezier.new ![c.start, c.ctrl1, c.ctrl2, c.end_])
      (by norm_num) i hm (by simpa [Bezier.new] using hlt) (v := v)
      (by simpa [Bezier.new] using h0) (by simpa [Bezier.new] using h1)
    simpa only [he, Option.some.injEq, exists_eq_left'] using this

/-! ### Inverting a quadratic curve -/

theorem quadratic_sign_change {a b c : ℝ} (h : c * (a + b + c) < 0) :
    ∃ r, (0 < r ∧ r < 1) ∧ a * r ^ 2 + b * r + c = 0 ∧
      (∀ s, 0 ≤ s → s ≤ 1 → a * s ^ 2 + b * s + c = 0 → s = r) ∧
      (a ≠ 0 → 0 < b ^ 2 - 4 * a * c) := by
  have hc : Continuous fun x : ℝ => a * x ^ 2 + b * x + c := by fun_prop
  have hex : ∃ r ∈ Set.Icc (0 : ℝ) 1, a * r ^ 2 + b * r + c = 0 := by
    rcases lt_or_ge c 0 with h0 | h0
    · have h1 : 0 ≤ a + b + c := by nlinarith
      obtain ⟨r, hr, e⟩ := intermediate_value_Icc (zero_le_one (α := ℝ)) hc.continuousOn
        (show (0 : ℝ) ∈ Set.Icc _ _ from ⟨by simpa using h0.le, by simpa using h1⟩)
      exact ⟨r, hr, e⟩
    · have h1 : a + b + c ≤ 0 := by nlinarith
      obtain ⟨r, hr, e⟩ := intermediate_value_Icc' (zero_le_one (α := ℝ)) hc.continuousOn
        (show (0 : ℝ) ∈ Set.Icc _ _ from ⟨by simpa using h1, by simpa using h0⟩)
      exact ⟨r, hr, e⟩
  obtain ⟨r, ⟨r0, r1⟩, hr⟩ := hex
  have hr0 : 0 < r := lt_of_le_of_ne r0 (by
    rintro rfl
    have : c = 0 := by linarith
    rw [this] at h; simp at h)
  have hr1 : r < 1 := lt_of_le_of_ne r1 (by
    rintro rfl
    have : a + b + c = 0 := by linarith
    rw [this] at h; simp at h)
  refine ⟨r, ⟨hr0, hr1⟩, hr, fun s s0 s1 hs => ?_, fun ha => ?_⟩
  · by_contra hne
    have hb : b = -a * (r + s) := by
      have : (s - r) * (a * (r + s) + b) = 0 := by linear_combination hs - hr
      rcases mul_eq_zero.1 this with h' | h'
      · exact absurd (sub_eq_zero.1 h') hne
      · linarith
    have hcc : c = a * (r * s) := by rw [hb] at hr; linear_combination hr
    have : 0 ≤ c * (a + b + c) := by
      have e : c * (a + b + c) = a ^ 2 * (r * s * ((1 - r) * (1 - s))) := by
        rw [hb, hcc]; ring
      rw [e]
      have : 0 ≤ 1 - r := by linarith
      have : 0 ≤ 1 - s := by linarith
      positivity
    linarith
  · have e : b ^ 2 - 4 * a * c = (2 * a * r + b) ^ 2 := by linear_combination (-4 * a) * hr
    rw [e]
    refine lt_of_le_of_ne (sq_nonneg _) fun h0 => ?_
    have hz : 2 * a * r + b = 0 := pow_eq_zero_iff (two_ne_zero) |>.1 h0.symm
    have hb : b = -2 * a * r := by linarith
    have hcc : c = a * r ^ 2 := by rw [hb] at hr; linear_combination hr
    have : c * (a + b + c) = (a * r * (1 - r)) ^ 2 := by rw [hb, hcc]; ring
    rw [this] at h
    exact absurd h (not_lt.2 (sq_nonneg _))

theorem eq_singleton {α : Type} {l : List α} {x : α} (hn : l.Nodup) (hx : x ∈ l)
    (h : ∀ y ∈ l, y = x) : l = [x] := by
  obtain _ | ⟨a, l⟩ := l
  · simp at hx
  · have ha := h a (by simp)
    subst ha
    obtain _ | ⟨b, l⟩ := l
    · rfl
    · have hb := h b (by simp)
      subst hb
      simp at hn

/-- The roots that the quadratic root finder returns inside (0, 1), for a polynomial that changes
its sign on [0, 1]. -/
theorem rootsSquare_inside {a b c : ℝ} (h : c * (a + b + c) < 0)
    (ha : eps ≤ |a| ∨ (a = 0 ∧ eps ≤ |b|)) :
    ∃ rs r, rootsSquare a b c = some rs ∧
      (rs.filter fun r => decide (0 < r) && decide (r < 1)) = [r] ∧ (0 < r ∧ r < 1) ∧
      a * r ^ 2 + b * r + c = 0 ∧
      ∀ s, 0 ≤ s → s ≤ 1 → a * s ^ 2 + b * s + c = 0 → s = r := by
  obtain ⟨rs, hrs, -, p1, -, -, -, p5, -⟩ := C55_roots_square a b c
  obtain ⟨r, ⟨r0, r1⟩, hr, huniq, hdisc⟩ := quadratic_sign_change h
  refine ⟨rs, r, hrs, ?_, ⟨r0, r1⟩, hr, huniq⟩
  rcases ha with ha | ⟨ha, hb⟩
  · obtain ⟨hn, -, hmem⟩ := p1 ha (hdisc (ne_zero_of_eps_le ha))
    refine eq_singleton (hn.filter _) ?_ ?_
    · rw [List.mem_filter]
      exact ⟨(hmem r).2 hr, by simp [r0, r1]⟩
    · intro y hy
      rw [List.mem_filter] at hy
      obtain ⟨hy1, hy2⟩ := hy
      simp only [Bool.and_eq_true, decide_eq_true_eq] at hy2
      exact huniq y hy2.1.le hy2.2.le ((hmem y).1 hy1)
  · obtain ⟨hl, hmem⟩ := p5 (by rw [ha, abs_zero]; exact eps_pos) hb
    have hy := (hmem r).2 (by rw [ha] at hr; linarith)
    rw [hl, List.mem_singleton] at hy
    rw [hl, ← hy]
    simp [r0, r1]

/-- **C116**: inverting a quadratic curve.  If the value lies strictly between the coordinates of
the two end points, `solve_t_for_axis` returns exactly one parameter, it is the only one in
[0, 1] with this value, and evaluating there gives the value back.  The second difference of
the coordinate must be 0 or at least EPSILON, and the curve must not end where it starts. -/
theorem C116_quadratic (q : QuadraticBezier P) (v : ℝ) (i : ℕ) (hi : i < Point.dim P)
    (hv : (coord q.start i - v) * (coord q.end_ i - v) < 0)
    (hse : eps ≤ pdist q.start q.end_ ^ 2)
    (ha : eps ≤ |coord q.start i - 2 * coord q.ctrl i + coord q.end_ i| ∨
      (coord q.start i - 2 * coord q.ctrl i + coord q.end_ i = 0 ∧
        eps ≤ |coord q.end_ i - coord q.start i|)) :
    ∃ t, q.solveTForAxis v i = some [t] ∧ (0 < t ∧ t < 1) ∧ coord (q.eval t) i = v ∧
      ∀ s : ℝ, 0 ≤ s → s ≤ 1 → coord (q.eval s) i = v → s = t := by
  obtain ⟨deg, hdeg, rs, hrs, h⟩ := quad_solve_eq q v hi
  have hz : ∀ t : ℝ, (coord q.start i - 2 * coord q.ctrl i + coord q.end_ i) * t ^ 2
      + (2 * (coord q.ctrl i - coord q.start i)) * t + (coord q.start i - v)
      = coord (q.eval t) i - v := by
    intro t; rw [C10_eval]; ring
  obtain ⟨rs', r, hrs', hf, ⟨r0, r1⟩, hr, huniq⟩ := rootsSquare_inside
    (a := coord q.start i - 2 * coord q.ctrl i + coord q.end_ i)
    (b := 2 * (coord q.ctrl i - coord q.start i)) (c := coord q.start i - v)
    (by
      have e : coord q.start i - 2 * coord q.ctrl i + coord q.end_ i
        + 2 * (coord q.ctrl i - coord q.start i) + (coord q.start i - v) = coord q.end_ i - v := by
        ring
      rw [e]; exact hv)
    (by
      refine ha.imp_right fun ⟨h1, h2⟩ => ⟨h1, ?_⟩
      have e : 2 * (coord q.ctrl i - coord q.start i) = coord q.end_ i - coord q.start i := by
        linarith
      rwa [e])
  rw [hrs] at hrs'
  obtain rfl := Option.some.inj hrs'
  have hdeg' : deg = false := by
    cases deg with
    | true => exact absurd (hdeg rfl) (not_lt.2 hse)
    | false => rfl
  subst hdeg'
  rw [if_neg (by simp), hf] at h
  rw [hz] at hr
  exact ⟨r, h, ⟨r0, r1⟩, by linarith, fun s s0 s1 hs => huniq s s0 s1 (by rw [hz, hs, sub_self])⟩

/-- The condition on the second difference is needed: if it is positive but below EPSILON, the
solver drops it, and for a value close to the end of the curve it finds nothing, although
the coordinate runs from 0 to 1 and the value lies between. -/
theorem C116_quadratic_small_false :
    let q := QuadraticBezier.new (pt2 0 0) (pt2 (1 / 2 - eps / 4) 0) (pt2 1 0)
    (coord q.start 0 < 1 - eps / 4 ∧ 1 - eps / 4 < coord q.end_ 0) ∧
    q.solveTForAxis (1 - eps / 4) 0 = some [] := by
  intro q
  have he := eps_pos
  have he1 := eps_lt_one
  have hd : Point.dim (PointN ℝ 2) = 2 := rfl
  refine ⟨?_, ?_⟩
  · simp only [q, QuadraticBezier.new, coord_pt2_0]
    constructor <;> linarith
  · obtain ⟨deg, hdeg, rs, hrs, h⟩ := quad_solve_eq q (1 - eps / 4) (i := 0) (by rw [hd]; norm_num)
    rw [h]
    cases deg with
    | true => rfl
    | false =>
      rw [if_neg (by simp)]
      simp only [q, QuadraticBezier.new, coord_pt2_0] at hrs
      obtain ⟨rs', hrs', -, -, -, -, -, p5, -⟩ := C55_roots_square
        (0 - 2 * (1 / 2 - eps / 4) + 1) (2 * (1 / 2 - eps / 4 - 0)) (0 - (1 - eps / 4))
      rw [hrs] at hrs'
      obtain rfl := Option.some.inj hrs'
      obtain ⟨hl, -⟩ := p5 (by rw [abs_lt]; constructor <;> linarith)
        (by rw [abs_of_pos (by linarith)]; unfold eps; norm_num)
      rw [hl]
      have : ¬ (-(0 - (1 - eps / 4)) / (2 * (1 / 2 - eps / 4 - 0)) < 1) := by
        rw [not_lt, le_div_iff₀ (by linarith)]
        linarith
      simp only [List.filter_cons, this, decide_false, Bool.and_false]
      rfl

/-! ### Inverting a cubic curve -/

/-- **C116**: inverting a cubic curve that advances on the axis.  The parameter with the value is
unique.  It is among the returned ones if the discriminant is negative, and otherwise within `δ`
of one of them, if it is not within `δ` of the ends. -/
theorem C116_cubic (c : CubicBezier P) (v : ℝ) (i : ℕ) (hi : i < Point.dim P)
    (h01 : coord c.start i ≤ coord c.ctrl1 i) (h12 : coord c.ctrl1 i ≤ coord c.ctrl2 i)
    (h23 : coord c.ctrl2 i ≤ coord c.end_ i) (hv0 : coord c.start i < v) (hv1 : v < coord c.end_ i)
    (k3 k2 k1 k0 disc δ : ℝ)
    (h3 : k3 = -coord c.start i + 3 * coord c.ctrl1 i - 3 * coord c.ctrl2 i + coord c.end_ i)
    (h2 : k2 = 3 * (coord c.start i - 2 * coord c.ctrl1 i + coord c.ctrl2 i))
    (h1 : k1 = 3 * (coord c.ctrl1 i - coord c.start i)) (h0 : k0 = coord c.start i - v)
    (hdisc : disc = 18 * k3 * k2 * k1 * k0 - 4 * k2 ^ 3 * k0 + k2 ^ 2 * k1 ^ 2 - 4 * k3 * k1 ^ 3
      - 27 * k3 ^ 2 * k0 ^ 2)
    (hδ : δ = max (Real.sqrt (k2 ^ 2 - 3 * k3 * k1) / |k3| / 10 ^ 7) (3 / 2 * eps))
    (hse : eps ≤ pdist c.start c.end_ ^ 2) (hA : eps ≤ |k3|) :
    ∃ t ts, (0 < t ∧ t < 1) ∧ coord (c.eval t) i = v ∧
      (∀ s : ℝ, 0 ≤ s → s ≤ 1 → coord (c.eval s) i = v → s = t) ∧
      c.solveTForAxis v i = some ts ∧ ts.length ≤ 3 ∧
      (disc < 0 → t ∈ ts) ∧ (δ < t → t < 1 - δ → ∃ t' ∈ ts, |t - t'| ≤ δ) := by
  obtain ⟨-, hu⟩ := C116_cubic_unique c i h01 h12 h23 (hv0.trans hv1)
  obtain ⟨t, ⟨t0, t1, ht⟩, huniq⟩ := hu v hv0.le hv1.le
  obtain ⟨ts, hts, hnear, hin⟩ := C57_cubic_complete c v i hi k3 k2 k1 k0 disc δ h3 h2 h1 h0 hdisc hδ
    hse hA
  obtain ⟨ts', hts', hlen, -⟩ := C57_cubic_partial c v i hi k3 k2 k1 k0 disc h3 h2 h1 h0 hdisc
  rw [hts] at hts'
  cases hts'
  have t0' : 0 < t := lt_of_le_of_ne t0 (by
    rintro rfl
    rw [C20_eval] at ht
    norm_num at ht
    linarith)
  have t1' : t < 1 := lt_of_le_of_ne t1 (by
    rintro rfl
    rw [C20_eval] at ht
    norm_num at ht
    linarith)
  exact ⟨t, ts, ⟨t0', t1'⟩, ht, fun s s0 s1 hs => huniq s ⟨s0, s1, hs⟩, hts, hlen,
    fun hd => hin hd t t0' t1' ht, fun h h' => hnear t h h' ht⟩

/-- **C116**: a cubic curve whose coordinate has no cubic term, for instance one obtained from a
quadratic curve or a straight timing curve, is inverted exactly. -/
theorem C116_cubic_flat (c : CubicBezier P) (v : ℝ) (i : ℕ) (hi : i < Point.dim P)
    (hv : (coord c.start i - v) * (coord c.end_ i - v) < 0)
    (hse : eps ≤ pdist c.start c.end_ ^ 2)
    (h3 : -coord c.start i + 3 * coord c.ctrl1 i - 3 * coord c.ctrl2 i + coord c.end_ i = 0)
    (ha : eps ≤ |3 * (coord c.start i - 2 * coord c.ctrl1 i + coord c.ctrl2 i)| ∨
      (coord c.start i - 2 * coord c.ctrl1 i + coord c.ctrl2 i = 0 ∧
        eps ≤ |coord c.end_ i - coord c.start i|)) :
    ∃ t, c.solveTForAxis v i = some [t] ∧ (0 < t ∧ t < 1) ∧ coord (c.eval t) i = v ∧
      ∀ s : ℝ, 0 ≤ s → s ≤ 1 → coord (c.eval s) i = v → s = t := by
  obtain ⟨deg, hdeg, rs, hrs, h⟩ := cubic_solve_eq c v hi
  rw [C56_degenerate _ _ _ _ (by rw [h3, abs_zero]; exact eps_pos)] at hrs
  have hz : ∀ t : ℝ, 3 * (coord c.start i - 2 * coord c.ctrl1 i + coord c.ctrl2 i) * t ^ 2
      + 3 * (coord c.ctrl1 i - coord c.start i) * t + (coord c.start i - v)
      = coord (c.eval t) i - v := by
    intro t; rw [C20_eval]; linear_combination (-t ^ 3) * h3
  obtain ⟨rs', r, hrs', hf, ⟨r0, r1⟩, hr, huniq⟩ := rootsSquare_inside
    (a := 3 * (coord c.start i - 2 * coord c.ctrl1 i + coord c.ctrl2 i))
    (b := 3 * (coord c.ctrl1 i - coord c.start i)) (c := coord c.start i - v)
    (by
      have e : 3 * (coord c.start i - 2 * coord c.ctrl1 i + coord c.ctrl2 i)
        + 3 * (coord c.ctrl1 i - coord c.start i) + (coord c.start i - v) = coord c.end_ i - v := by
        linear_combination -h3
      rw [e]; exact hv)
    (by
      refine ha.imp_right fun ⟨h1, h2⟩ => ⟨by rw [h1, mul_zero], ?_⟩
      have e : 3 * (coord c.ctrl1 i - coord c.start i) = coord c.end_ i - coord c.start i := by
        linear_combination -h3 - 3 * h1
      rwa [e])
  rw [hrs] at hrs'
  obtain rfl := Option.some.inj hrs'
  have hdeg' : deg = false := by
    cases deg with
    | true => exact absurd (hdeg rfl) (not_lt.2 hse)
    | false => rfl
  subst hdeg'
  rw [if_neg (by simp), hf] at h
  rw [hz] at hr
  exact ⟨r, h, ⟨r0, r1⟩, by linarith, fun s s0 s1 hs => huniq s s0 s1 (by rw [hz, hs, sub_self])⟩

/-- The straight timing curve (0, 0), (1/3, 1/3), (2/3, 2/3), (1, 1). -/
example : ∃ t, (CubicBezier.new (pt2 0 0) (pt2 (1 / 3) (1 / 3)) (pt2 (2 / 3) (2 / 3))
    (pt2 1 1)).solveTForAxis (1 / 4) 0 = some [t] := by
  have := eps_lt_one
  obtain ⟨t, h, _⟩ := C116_cubic_flat (CubicBezier.new (pt2 0 0) (pt2 (1 / 3) (1 / 3))
    (pt2 (2 / 3) (2 / 3)) (pt2 1 1)) (1 / 4) 0 (by decide) (by simp [CubicBezier.new]; norm_num)
    (by
      simp only [CubicBezier.new, pdist_pt2]
      rw [Real.sq_sqrt (by norm_num)]; norm_num; linarith)
    (by simp only [CubicBezier.new, coord_pt2_0]; norm_num)
    (Or.inr (by simp only [CubicBezier.new, coord_pt2_0]; norm_num; linarith))
  exact ⟨t, h⟩

/-- The hypotheses are satisfiable: the timing curve (0,0), (1/4,1/10), (1/4,1), (1,1), the value
1/2 on the first axis. -/
example : let c := CubicBezier.new (pt2 0 0) (pt2 (1 / 4) (1 / 10)) (pt2 (1 / 4) 1) (pt2 1 1)
    (coord c.start 0 ≤ coord c.ctrl1 0 ∧ coord c.ctrl1 0 ≤ coord c.ctrl2 0 ∧
      coord c.ctrl2 0 ≤ coord c.end_ 0 ∧ coord c.start 0 < 1 / 2 ∧ 1 / 2 < coord c.end_ 0) ∧
    eps ≤ pdist c.start c.end_ ^ 2 ∧
    eps ≤ |-coord c.start 0 + 3 * coord c.ctrl1 0 - 3 * coord c.ctrl2 0 + coord c.end_ 0| := by
  have := eps_lt_one
  simp only [CubicBezier.new, coord_pt2_0, pdist_pt2]
  refine ⟨by norm_num, ?_, ?_⟩
  · rw [Real.sq_sqrt (by norm_num)]; norm_num; linarith
  · norm_num; linarith

/-- And for quadratic curves. -/
example : ∃ t, (QuadraticBezier.new (pt2 0 0) (pt2 (1 / 4) 1) (pt2 1 1)).solveTForAxis (1 / 2) 0
    = some [t] := by
  have := eps_lt_one
  obtain ⟨t, h, _⟩ := C116_quadratic (QuadraticBezier.new (pt2 0 0) (pt2 (1 / 4) 1) (pt2 1 1))
    (1 / 2) 0 (by decide) (by simp [QuadraticBezier.new]; norm_num)
    (by
      simp only [QuadraticBezier.new, pdist_pt2]
      rw [Real.sq_sqrt (by norm_num)]; norm_num; linarith)
    (Or.inl (by simp only [QuadraticBezier.new, coord_pt2_0]; norm_num; unfold eps; norm_num))
  exact ⟨t, h⟩

end Stroke
