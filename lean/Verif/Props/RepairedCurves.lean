import Verif.Repaired.Model
import Verif.Props.Distance
import Verif.Props.ArcLengthShape
import Verif.Props.ArcLengthSplit

/-!
# The repaired line segments and Bezier curves (C121)
-/

set_option linter.unusedSectionVars false

namespace Stroke

variable {P : Type} [Point ℝ P] [LawfulPoint P] {N : ℕ}

/-! ### Line segments -/

/-- **C121**: the repaired `split` cuts the segment at `t` (the statement of C06). -/
theorem C121_split (l : LineSegment P) (t s : ℝ) :
    (l.splitFixed t).1.eval s = l.eval (t * s) ∧
    (l.splitFixed t).2.eval s = l.eval (t + (1 - t) * s) := by
  constructor <;> apply point_ext <;> intro i <;>
    simp only [LineSegment.splitFixed, LineSegment.eval, coord_add, coord_mul, coord_sub] <;> ring

/-- The repaired distance in closed form. -/
theorem distanceFixed_eq (l : LineSegment P) (p : P) :
    l.distanceFixed p = some
      (if pdist l.end_ l.start ^ 2 = 0 then pdist l.start p
       else
        let r := (∑ i ∈ Finset.range (Point.dim P),
          (coord p i - coord l.start i) * (coord l.end_ i - coord l.start i))
            / pdist l.end_ l.start ^ 2
        pdist p (l.eval (max (min r 1) 0))) := by
  unfold LineSegment.distanceFixed
  simp only [dotLoop_eq, eq_real, lt_real, squaredLength_sub, decide_eq_true_eq, lit_real,
    Rat.cast_zero, Rat.cast_one]
  split
  · rw [sqrt_real, Real.sqrt_sq (pdist_nonneg _ _)]; rfl
  · show some _ = some _
    simp only [coord_sub, sqrt_real]
    rw [Real.sqrt_sq (pdist_nonneg _ _)]
    congr 1
    generalize (∑ i ∈ Finset.range (Point.dim P),
      (coord p i - coord l.start i) * (coord l.end_ i - coord l.start i))
        / pdist l.end_ l.start ^ 2 = r
    by_cases h1 : r < 1
    · rw [if_pos h1, min_eq_left h1.le]
      rcases lt_or_ge r 0 with h | h
      · rw [if_pos h, max_eq_right h.le]; rfl
      · rw [if_neg (not_lt.2 h), max_eq_left h]; rfl
    · rw [if_neg h1, min_eq_right (not_lt.1 h1), if_neg (by norm_num), max_eq_left (by norm_num)]
      rfl

/-- **C121**: the repaired `distance_to_point` of a segment is the distance to the nearest point of
the segment, for every segment and every point (the statement of C07). -/
theorem C121_distance (l : LineSegment P) (p : P) :
    ∃ d, l.distanceFixed p = some d ∧ IsSegmentDistance l.start l.end_ p d := by
  rw [distanceFixed_eq]
  refine ⟨_, rfl, ?_⟩
  unfold IsSegmentDistance
  rw [segmentDistances_eq]
  have hrew : ∀ s : ℝ, toE l.start + s • (toE l.end_ - toE l.start) - toE p
      = s • (toE l.end_ - toE l.start) - (toE p - toE l.start) := fun s => by abel
  split
  · rename_i h
    have e : toE l.end_ - toE l.start = 0 := by
      rw [pdist_eq_norm] at h
      exact norm_eq_zero.1 (pow_eq_zero_iff (two_ne_zero) |>.1 h)
    have e' : ∀ s : ℝ, ‖toE l.start + s • (toE l.end_ - toE l.start) - toE p‖ = pdist l.start p := by
      intro s
      rw [e, smul_zero, add_zero, pdist_eq_norm]
    simp only [e']
    exact ⟨⟨0, le_rfl, zero_le_one, rfl⟩, by rintro r ⟨s, -, -, rfl⟩; exact le_rfl⟩
  · rename_i h
    have hl2 : 0 < pdist l.end_ l.start ^ 2 := lt_of_le_of_ne (sq_nonneg _) (Ne.symm h)
    set dot := ∑ i ∈ Finset.range (Point.dim P),
        (coord p i - coord l.start i) * (coord l.end_ i - coord l.start i) with hdot
    set L := pdist l.end_ l.start ^ 2 with hL
    have hdot' : dot = inner ℝ (toE p - toE l.start) (toE l.end_ - toE l.start) := by
      rw [← toE_sub, ← toE_sub, inner_toE, hdot]; simp
    have hL' : L = ‖toE l.end_ - toE l.start‖ ^ 2 := by rw [hL, pdist_eq_norm]
    have hev : ∀ u : ℝ, pdist p (l.eval u)
        = ‖toE l.start + u • (toE l.end_ - toE l.start) - toE p‖ := by
      intro u
      rw [pdist_comm, pdist_eq_norm]; simp [LineSegment.eval]
    simp only [hev]
    refine ⟨⟨_, le_max_right _ _, max_le (min_le_right _ _) zero_le_one, rfl⟩, ?_⟩
    rintro r ⟨s, hs0, hs1, rfl⟩
    apply (sq_le_sq₀ (norm_nonneg _) (norm_nonneg _)).1
    rw [hrew, hrew, sq_dist_param, sq_dist_param, ← hdot', ← hL']
    have hd : dot = dot / L * L := by field_simp
    set c := dot / L
    rw [hd]
    have key : ∀ u : ℝ, (u - c) ^ 2 ≤ (s - c) ^ 2 →
        ‖toE p - toE l.start‖ ^ 2 - 2 * u * (c * L) + u ^ 2 * L
          ≤ ‖toE p - toE l.start‖ ^ 2 - 2 * s * (c * L) + s ^ 2 * L := by
      intro u hu
      nlinarith [mul_le_mul_of_nonneg_left hu hl2.le]
    apply key
    rcases le_total c 1 with h1 | h1
    · rw [min_eq_left h1]
      rcases le_total c 0 with h0 | h0
      · rw [max_eq_right h0]; nlinarith
      · rw [max_eq_left h0]; nlinarith [sq_nonneg (s - c)]
    · rw [min_eq_right h1, max_eq_left (by norm_num)]
      nlinarith

/-- A point is near a segment exactly if the nearest point of the segment is. -/
theorem nearSegment_iff {a b p : P} {d tol : ℝ} (hd : IsSegmentDistance a b p d) :
    d ≤ tol ↔ NearSegment a b p tol :=
  ⟨fun h => ⟨d, hd.1, h⟩, fun ⟨_, hr, h⟩ => (hd.2 hr).trans h⟩

/-- **C121**: with the repaired distance `is_linear` of quadratic curves with distinguishable end
points answers exactly whether the control point is within the tolerance of the base line (the
statements of C17 and C18). -/
theorem C121_is_linear_quadratic (q : QuadraticBezier P) (tol : ℝ)
    (h : eps ≤ pdist q.start q.end_ ^ 2) :
    ∃ r, q.isLinearFixed tol = some r ∧ (r = true ↔ NearSegment q.start q.end_ q.ctrl tol) := by
  obtain ⟨d, hd, hs⟩ := C121_distance q.baseline q.ctrl
  unfold QuadraticBezier.isLinearFixed
  simp only [squaredLength_sub, hd, lt_real, decide_eq_true_eq, epsilon_real, le_real]
  rw [if_neg (not_lt.2 h)]
  exact ⟨_, rfl, by rw [decide_eq_true_eq]; exact nearSegment_iff hs⟩

/-- **C121**: the same for cubic curves (the statement of C28). -/
theorem C121_is_linear_cubic (c : CubicBezier P) (tol : ℝ)
    (h : eps ≤ pdist c.start c.end_ ^ 2) :
    ∃ r, c.isLinearFixed tol = some r ∧ (r = true ↔
      NearSegment c.start c.end_ c.ctrl1 tol ∧ NearSegment c.start c.end_ c.ctrl2 tol) := by
  obtain ⟨d1, hd1, hs1⟩ := C121_distance c.baseline c.ctrl1
  obtain ⟨d2, hd2, hs2⟩ := C121_distance c.baseline c.ctrl2
  unfold CubicBezier.isLinearFixed
  simp only [squaredLength_sub, hd1, hd2, lt_real, decide_eq_true_eq, epsilon_real, le_real]
  rw [if_neg (not_lt.2 h)]
  refine ⟨_, rfl, ?_⟩
  rw [Bool.and_eq_true, decide_eq_true_eq, decide_eq_true_eq]
  exact and_congr (nearSegment_iff hs1) (nearSegment_iff hs2)

/-- Test: curves with distinguishable end points. -/
example : eps ≤ pdist (pt2 0 0) (pt2 3 4) ^ 2 := by
  have e : pdist (pt2 0 0) (pt2 3 4) ^ 2 = 25 := by
    rw [pdist_sq]
    show ∑ i ∈ Finset.range 2, _ = _
    simp [Finset.sum_range_succ]
    norm_num
  rw [e]
  have := eps_lt_one
  linarith

/-! ### The axis derivative -/

/-- **C121**: the repaired `dd` is the component of the derivative (the statement of C23). -/
theorem C121_dd (c : CubicBezier P) (t : ℝ) (i : ℕ) :
    c.ddFixed t i = Point.axis (c.derivative.eval t) i := by
  unfold CubicBezier.ddFixed
  by_cases hi : i < Point.dim P
  · rw [axis_eq _ hi, axis_eq _ hi, axis_eq _ hi, axis_eq _ hi, axis_eq _ hi, C10_eval]
    show some _ = some _
    congr 1
    simp [CubicBezier.derivative]; ring
  · rw [axis_none c.start hi, axis_none (c.derivative.eval t) hi]; rfl

/-! ### Arc length -/

/-- The loop of `arclen` from 0. -/
theorem sampledFixed_eq (f : ℝ → P) (n : ℕ) :
    forRange 0 n (lit 0 : ℝ) (fun i arclen => do
      let t := Scalar.ofUsize i * lit 1 / Scalar.ofUsize n
      let p1 ← some (f t)
      let p2 ← some (f (t + lit 1 / Scalar.ofUsize n))
      pure (arclen + Scalar.sqrt (Point.squaredLength (p1 - p2))))
      = some (polylineLength (fun i : ℕ => f ((i : ℝ) / n)) 0 n) := by
  unfold polylineLength
  obtain ⟨s', hs, hI⟩ := forRange_inv (m := Option) (lo := 0) (hi := n) (s := (lit 0 : ℝ))
    (body := fun i arclen => do
      let t := Scalar.ofUsize i * lit 1 / Scalar.ofUsize n
      let p1 ← some (f t)
      let p2 ← some (f (t + lit 1 / Scalar.ofUsize n))
      pure (arclen + Scalar.sqrt (Point.squaredLength (p1 - p2))))
    (fun i s => s = ∑ j ∈ Finset.Ico 0 i, pdist (f ((j : ℝ) / n)) (f (((j + 1 : ℕ) : ℝ) / n)))
    (Nat.zero_le _) (by simp) (by
      intro i s hi hin hs
      refine ⟨_, rfl, ?_⟩
      rw [sqrt_real, sqrt_squaredLength_sub, Finset.sum_Ico_succ_top hi, ← hs]
      simp only [lit_real, ofUsize_real, Rat.cast_one, mul_one]
      congr 3
      have hn0 : (0 : ℝ) < n := by exact_mod_cast (by omega : 0 < n)
      push_cast; field_simp)
  rw [hs, hI]; rfl

/-- **C121**: the repaired `arclen(n)` is the length of the polyline through the points at
`0, 1/n, …, 1` (the statement of C15). -/
theorem C121_arclen_quadratic (q : QuadraticBezier P) (n : ℕ) :
    q.arclenFixed n = some (polylineLength (fun i : ℕ => q.eval ((i : ℝ) / n)) 0 n) := by
  rw [← sampledFixed_eq (fun t => q.eval t) n]
  simp only [C10_methods_agree]
  rfl

/-- **C121**: the same for cubic curves (the statement of C26). -/
theorem C121_arclen_cubic (c : CubicBezier P) (n : ℕ) :
    c.arclenFixed n = some (polylineLength (fun i : ℕ => c.eval ((i : ℝ) / n)) 0 n) := by
  rw [← sampledFixed_eq (fun t => c.eval t) n]
  simp only [C20_methods_agree]
  rfl

/-- **C121**: the same for generic curves (the statement of C39). -/
theorem C121_arclen_bezier (b : Bezier P N) (hN : 1 ≤ N) :
    ∃ f : ℝ → P, (∀ t, b.eval t = some (f t)) ∧
      ∀ n, b.arclenFixed n = some (polylineLength (fun i : ℕ => f ((i : ℝ) / n)) 0 n) := by
  refine ⟨_, fun t => bezier_eval_cas b hN t, fun n => ?_⟩
  rw [← sampledFixed_eq (fun t => cas (extend b.control_points) t (N - 1) 0) n]
  unfold Bezier.arclenFixed
  have : b.eval = fun t : ℝ => some (cas (extend b.control_points) t (N - 1) 0) :=
    funext fun t => bezier_eval_cas b hN t
  rw [this]

/-- **C121**: reversing the control points leaves the repaired `arclen` unchanged (the failing part
of C71). -/
theorem C121_arclen_reverse (a b c d : P) (n : ℕ) :
    (QuadraticBezier.new c b a).arclenFixed n = (QuadraticBezier.new a b c).arclenFixed (S := ℝ) n ∧
    (CubicBezier.new d c b a).arclenFixed n = (CubicBezier.new a b c d).arclenFixed (S := ℝ) n := by
  have k : ∀ g h : ℝ → P, (∀ t, h t = g (1 - t)) →
      polylineLength (fun i : ℕ => h ((i : ℝ) / n)) 0 n
        = polylineLength (fun i : ℕ => g ((i : ℝ) / n)) 0 n := by
    intro g h e
    rcases Nat.eq_zero_or_pos n with rfl | hn
    · simp [polylineLength]
    have := sampled_reverse g h e n hn
    have k2 : ∀ g : ℝ → P, pdist (g 0) (g (1 / n)) + polylineLength (fun i : ℕ => g ((i : ℝ) / n)) 1 n
        = polylineLength (fun i : ℕ => g ((i : ℝ) / n)) 0 n := by
      intro g
      rw [polyline_first _ hn]
      simp
    rw [k2, k2] at this
    exact this.symm
  rw [C121_arclen_quadratic, C121_arclen_quadratic, C121_arclen_cubic, C121_arclen_cubic]
  exact ⟨congrArg some (k _ _ fun t => (C38_specialised a b c d t).2.1),
    congrArg some (k _ _ fun t => (C38_specialised a b c d t).2.2)⟩

/-- **C121**: the repaired `arclen` is additive under `split` (the failing half of C95). -/
theorem C121_arclen_split (b : Bezier P N) (hN : 1 ≤ N) {m n : ℕ} (hm : 1 ≤ m) (hn : m < n) :
    ∃ (l r : Bezier P N) (Ll Lr : ℝ), b.split ((m : ℝ) / n) = some (l, r) ∧
      l.arclenFixed m = some Ll ∧ r.arclenFixed (n - m) = some Lr ∧
      b.arclenFixed n = some (Ll + Lr) := by
  obtain ⟨l, r, hs, h⟩ := C33_split b ((m : ℝ) / n)
  obtain ⟨f, hf, ha⟩ := C121_arclen_bezier b hN
  obtain ⟨fl, hfl, hal⟩ := C121_arclen_bezier l hN
  obtain ⟨fr, hfr, har⟩ := C121_arclen_bezier r hN
  have el : ∀ s, fl s = f ((m : ℝ) / n * s) := fun s => by
    have := (h hN s).1
    rw [hfl, hf] at this
    exact Option.some.inj this
  have er : ∀ s, fr s = f ((m : ℝ) / n + (1 - (m : ℝ) / n) * s) := fun s => by
    have := (h hN s).2
    rw [hfr, hf] at this
    exact Option.some.inj this
  refine ⟨l, r, _, _, hs, hal m, har (n - m), ?_⟩
  rw [ha]
  congr 1
  have n0 : (0 : ℝ) < n := by exact_mod_cast (by omega : 0 < n)
  have m0 : (0 : ℝ) < m := by exact_mod_cast hm
  have hd : ((n - m : ℕ) : ℝ) ≠ 0 := by exact_mod_cast (by omega : n - m ≠ 0)
  have e1 : ∀ i : ℕ, (m : ℝ) / n * ((i : ℝ) / m) = (i : ℝ) / n := fun i => by field_simp
  have e2 : ∀ i : ℕ, (m : ℝ) / n + (1 - (m : ℝ) / n) * ((i : ℝ) / (n - m : ℕ))
      = ((m + i : ℕ) : ℝ) / n := fun i => by
    have : ((n - m : ℕ) : ℝ) = n - m := by rw [Nat.cast_sub hn.le]
    rw [this] at hd ⊢
    push_cast
    field_simp
  unfold polylineLength
  simp only [el, er, e1, e2]
  rw [← Finset.sum_Ico_consecutive _ (Nat.zero_le m) hn.le]
  congr 1
  rw [Finset.sum_Ico_eq_sum_range, Finset.sum_Ico_eq_sum_range]
  refine Finset.sum_congr (by simp) fun i _ => ?_
  rw [show 0 + i = i by omega, show m + i + 1 = m + (i + 1) by omega]

/-! ### The distance to a curve -/

theorem finePassFixed_spec (f : ℝ → P) (p : P) (s0 : ℝ × ℝ)
    (hu : ∃ u, 0 ≤ u ∧ u ≤ 1 ∧ s0.2 = pdist (f u) p ^ 2) :
    ∃ s, finePassFixed (fun t => some (f t)) p s0 = some s ∧ s.2 ≤ s0.2 ∧
      ∃ u, 0 ≤ u ∧ u ≤ 1 ∧ s.2 = pdist (f u) p ^ 2 := by
  unfold finePassFixed
  obtain ⟨s, hs, h⟩ := forRange_inv (m := Option) (lo := 0) (hi := nstepsDistance) (s := s0)
    (body := fun i s => do
      let u := s0.1 + (Scalar.ofUsize i - lit 32) / Scalar.ofUsize (nstepsDistance * nstepsDistance)
      let u := if Scalar.lt u (lit 0) then lit 0 else u
      let u := if Scalar.lt (lit 1) u then lit 1 else u
      let candidate ← some (f u)
      if Scalar.lt (Point.squaredLength (candidate - p)) s.2 then
        pure (u, Point.squaredLength (candidate - p))
      else pure s)
    (fun _ s => s.2 ≤ s0.2 ∧ ∃ u, 0 ≤ u ∧ u ≤ 1 ∧ s.2 = pdist (f u) p ^ 2)
    (Nat.zero_le _) ⟨le_rfl, hu⟩
    (by
      intro i s _ _ ⟨h1, h2⟩
      simp only [Option.bind_eq_bind, Option.bind_some, squaredLength_sub, lt_real,
        decide_eq_true_eq, Option.pure_def, lit_real, Rat.cast_zero, Rat.cast_one]
      generalize s0.1 + (Scalar.ofUsize i - ((32 : ℚ) : ℝ))
        / Scalar.ofUsize (nstepsDistance * nstepsDistance) = u
      set v : ℝ := if 1 < (if u < 0 then (0 : ℝ) else u) then 1 else (if u < 0 then 0 else u) with hv
      have v0 : 0 ≤ v := by rw [hv]; split_ifs <;> linarith
      have v1 : v ≤ 1 := by rw [hv]; split_ifs <;> linarith
      by_cases hlt : pdist (f v) p ^ 2 < s.2
      · rw [if_pos hlt]
        exact ⟨_, rfl, hlt.le.trans h1, v, v0, v1, rfl⟩
      · rw [if_neg hlt]
        exact ⟨_, rfl, h1, h2⟩)
  exact ⟨s, hs, h⟩

theorem searchDistanceFixed_spec (f : ℝ → P) (p : P) :
    ∃ r, searchDistanceFixed (fun t => some (f t)) (f 0) p = some r ∧
      (∃ u, 0 ≤ u ∧ u ≤ 1 ∧ r = pdist (f u) p) ∧
      ∀ i : ℕ, i < 64 → r ≤ pdist (f ((i : ℝ) / 64)) p := by
  obtain ⟨s1, h1, hmin, ⟨u, hu0, hu1, hu⟩, -, -⟩ := coarsePass_spec f p
  obtain ⟨s2, h2, hle, ⟨w, hw0, hw1, hw⟩⟩ := finePassFixed_spec f p s1
    ⟨u, hu0, by linarith, hu⟩
  refine ⟨Real.sqrt s2.2, ?_, ⟨w, hw0, hw1, ?_⟩, fun i hi => ?_⟩
  · unfold searchDistanceFixed
    simp only []
    rw [h1]
    simp only [Option.bind_eq_bind, Option.bind_some]
    rw [h2]; rfl
  · rw [hw, Real.sqrt_sq (pdist_nonneg _ _)]
  · rw [← Real.sqrt_sq (pdist_nonneg (f ((i : ℝ) / 64)) p)]
    exact Real.sqrt_le_sqrt (hle.trans (hmin i hi))

/-- **C121**: with the repaired second pass `distance_to_point` of a generic curve is the distance to
a point of the curve on `[0, 1]`, and exceeds no such distance by more than `(N - 1) D / 64`, where
`D` bounds the distance of consecutive control points (the statement of C40). -/
theorem C121_curve_distance (b : Bezier P N) (hN : 1 ≤ N) (p : P) (D : ℝ)
    (hD : ∀ k (hk : k + 1 < N), pdist (b.control_points ⟨k, by omega⟩)
      (b.control_points ⟨k + 1, hk⟩) ≤ D) :
    ∃ f : ℝ → P, (∀ t, b.eval t = some (f t)) ∧ ∃ r, b.distanceFixed p = some r ∧
      (∃ u, 0 ≤ u ∧ u ≤ 1 ∧ r = pdist (f u) p) ∧
      ∀ t, 0 ≤ t → t ≤ 1 → r ≤ pdist (f t) p + ((N - 1 : ℕ) : ℝ) * D / 64 := by
  have hev : b.eval = fun t : ℝ => some (cas (extend b.control_points) t (N - 1) 0) :=
    funext fun t => bezier_eval_cas b hN t
  refine ⟨_, fun t => bezier_eval_cas b hN t, ?_⟩
  obtain ⟨r, hr, hu, hs⟩ := searchDistanceFixed_spec
    (fun t => cas (extend b.control_points) t (N - 1) 0) p
  have h0 : cas (extend b.control_points) (0 : ℝ) (N - 1) 0 = b.control_points ⟨0, hN⟩ := by
    have := (C31_endpoints b hN).1
    rw [bezier_eval_cas b hN] at this
    exact Option.some.inj this
  refine ⟨r, ?_, hu, fun t ht0 ht1 => ?_⟩
  · unfold Bezier.distanceFixed
    rw [Arr.get?_lt _ hN]
    simp only [Option.bind_eq_bind, Option.bind_some]
    rw [hev]
    simp only [h0] at hr
    exact hr
  · refine searchDistance_upper (f := fun t => cas (extend b.control_points) t (N - 1) 0)
      (V := ((N - 1 : ℕ) : ℝ) * D) hs ?_ ht0 ht1
    intro x y hx hxy hy
    refine bezier_lipschitz _ _ D ?_ x y hx hxy hy
    intro k hk
    rw [extend_lt _ (by omega), extend_lt _ (by omega)]
    exact hD k (by omega)

/-- **C121**: the same for quadratic curves (the statement of C16). -/
theorem C121_curve_distance_quadratic (q : QuadraticBezier P) (p : P) (D : ℝ)
    (h1 : pdist q.start q.ctrl ≤ D) (h2 : pdist q.ctrl q.end_ ≤ D) :
    ∃ r, q.distanceFixed p = some r ∧
      (∃ u : ℝ, 0 ≤ u ∧ u ≤ 1 ∧ r = pdist (q.eval u) p) ∧
      ∀ t : ℝ, 0 ≤ t → t ≤ 1 → r ≤ pdist (q.eval t) p + 2 * D / 64 := by
  obtain ⟨r, hr, hu, hs⟩ := searchDistanceFixed_spec (fun t => q.eval t) p
  refine ⟨r, ?_, hu, fun t ht0 ht1 => ?_⟩
  · unfold QuadraticBezier.distanceFixed
    rw [(C10_endpoints q).1] at hr
    exact hr
  · refine searchDistance_upper hs ?_ ht0 ht1
    intro x y hx hxy hy
    have hcas : ∀ t : ℝ, q.eval t = cas (extend ![q.start, q.ctrl, q.end_]) t 2 0 := by
      intro t
      have := C32_quadratic_eval q.start q.ctrl q.end_ t
      rw [bezier_eval_cas _ (by omega)] at this
      exact (Option.some.inj this).symm
    have := bezier_lipschitz (extend ![q.start, q.ctrl, q.end_]) 2 D ?_ x y hx hxy hy
    · simp only [hcas]
      exact_mod_cast this
    · intro k hk
      rw [extend_lt _ (by omega), extend_lt _ (by omega)]
      interval_cases k
      · exact h1
      · exact h2

/-- **C121**: the same for cubic curves (the statement of C27). -/
theorem C121_curve_distance_cubic (c : CubicBezier P) (p : P) (D : ℝ)
    (h1 : pdist c.start c.ctrl1 ≤ D) (h2 : pdist c.ctrl1 c.ctrl2 ≤ D)
    (h3 : pdist c.ctrl2 c.end_ ≤ D) :
    ∃ r, c.distanceFixed p = some r ∧
      (∃ u : ℝ, 0 ≤ u ∧ u ≤ 1 ∧ r = pdist (c.eval u) p) ∧
      ∀ t : ℝ, 0 ≤ t → t ≤ 1 → r ≤ pdist (c.eval t) p + 3 * D / 64 := by
  obtain ⟨r, hr, hu, hs⟩ := searchDistanceFixed_spec (fun t => c.eval t) p
  refine ⟨r, ?_, hu, fun t ht0 ht1 => ?_⟩
  · unfold CubicBezier.distanceFixed
    rw [(C20_endpoints c).1] at hr
    exact hr
  · refine searchDistance_upper hs ?_ ht0 ht1
    intro x y hx hxy hy
    have hcas : ∀ t : ℝ, c.eval t = cas (extend ![c.start, c.ctrl1, c.ctrl2, c.end_]) t 3 0 := by
      intro t
      have := C32_cubic_eval c.start c.ctrl1 c.ctrl2 c.end_ t
      rw [bezier_eval_cas _ (by omega)] at this
      exact (Option.some.inj this).symm
    have := bezier_lipschitz (extend ![c.start, c.ctrl1, c.ctrl2, c.end_]) 3 D ?_ x y hx hxy hy
    · simp only [hcas]
      exact_mod_cast this
    · intro k hk
      rw [extend_lt _ (by omega), extend_lt _ (by omega)]
      interval_cases k
      · exact h1
      · exact h2
      · exact h3

/-- Test: with the second pass repaired, the query of `C16_false` gets a positive distance: the
origin is not on that curve. -/
example : ∃ r : ℝ, escapeQuad.distanceFixed (pt2 0 0) = some r ∧ 0 < r := by
  obtain ⟨r, hr, ⟨u, hu0, hu1, e⟩, -⟩ := C121_curve_distance_quadratic escapeQuad (pt2 0 0)
    (max (pdist escapeQuad.start escapeQuad.ctrl) (pdist escapeQuad.ctrl escapeQuad.end_))
    (le_max_left _ _) (le_max_right _ _)
  exact ⟨r, hr, by rw [e]; linarith [C16_false.2 u hu0 hu1]⟩

end Stroke
