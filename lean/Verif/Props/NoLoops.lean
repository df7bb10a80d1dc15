import Verif.Props.Easing

/-!
# Curves without loops and cusps (C117)
-/

namespace Stroke

variable {P : Type} [Point ℝ P] [LawfulPoint P] {N : ℕ}

/-- Position along the direction `u` (the scalar product with `u`). -/
theorem side_bezier (b : Bezier P N) (hN : 1 ≤ N) (u : ℕ → ℝ) {t : ℝ} {p : P}
    (hp : b.eval t = some p) :
    side u 0 p = bsum (N - 1) (fun k => side u 0 (extend b.controlPoints k)) t := by
  obtain ⟨q, hq, hc⟩ := C30_eval b hN t
  rw [hp] at hq
  cases hq
  unfold side
  simp only [hc, bezierCoord_eq_bsum hN, sub_zero, bsum, Finset.mul_sum]
  rw [Finset.sum_comm]
  refine Finset.sum_congr rfl fun k _ => Finset.sum_congr rfl fun i _ => ?_
  ring

/-- **C117**: if the control points of a curve never go back in some direction `u`, and the last
is ahead of the first, the curve strictly advances in this direction; so it does not pass
through any point twice. -/
theorem C117_advance (b : Bezier P N) (hN : 1 ≤ N) (u : ℕ → ℝ)
    (hmono : ∀ j k : Fin N, j ≤ k → side u 0 (b.control_points j) ≤ side u 0 (b.control_points k))
    (hlt : side u 0 (b.control_points ⟨0, hN⟩) < side u 0 (b.control_points ⟨N - 1, by omega⟩))
    {s t : ℝ} (hs : 0 ≤ s) (hst : s < t) (ht : t ≤ 1) :
    ∃ p q, b.eval s = some p ∧ b.eval t = some q ∧ side u 0 p < side u 0 q ∧ p ≠ q := by
  obtain ⟨p, hp, -⟩ := C30_eval b hN s
  obtain ⟨q, hq, -⟩ := C30_eval b hN t
  have h : side u 0 p < side u 0 q := by
    rw [side_bezier b hN u hp, side_bezier b hN u hq]
    refine bsum_strictMono (fun k hk => ?_) ?_ ⟨hs, by linarith⟩ ⟨by linarith, ht⟩ hst
    · rw [extend_lt b.controlPoints (k := k) (by omega),
        extend_lt b.controlPoints (k := k + 1) (by omega)]
      exact hmono _ _ (by simp [Fin.le_def])
    · rw [extend_lt b.controlPoints (k := 0) (by omega),
        extend_lt b.controlPoints (k := N - 1) (by omega)]
      exact hlt
  exact ⟨p, q, hp, hq, h, fun e => by rw [e] at h; exact lt_irrefl _ h⟩

/-- **C117**: such a curve has no loop: different parameters give different points. -/
theorem C117_no_loop (b : Bezier P N) (hN : 1 ≤ N) (u : ℕ → ℝ)
    (hmono : ∀ j k : Fin N, j ≤ k → side u 0 (b.control_points j) ≤ side u 0 (b.control_points k))
    (hlt : side u 0 (b.control_points ⟨0, hN⟩) < side u 0 (b.control_points ⟨N - 1, by omega⟩))
    {s t : ℝ} (hs : 0 ≤ s ∧ s ≤ 1) (ht : 0 ≤ t ∧ t ≤ 1) (h : b.eval s = b.eval t) : s = t := by
  rcases lt_trichotomy s t with g | g | g
  · obtain ⟨p, q, hp, hq, -, hne⟩ := C117_advance b hN u hmono hlt hs.1 g ht.2
    rw [hp, hq] at h
    exact absurd (Option.some.inj h) hne
  · exact g
  · obtain ⟨p, q, hp, hq, -, hne⟩ := C117_advance b hN u hmono hlt ht.1 g hs.2
    rw [hp, hq] at h
    exact absurd (Option.some.inj h).symm hne

/-- **C117**: such a curve has no cusp: the velocity has a positive component in the direction
at every parameter strictly between 0 and 1. -/
theorem C117_no_cusp (b : Bezier P N) (hN : 2 ≤ N) (u : ℕ → ℝ)
    (hmono : ∀ j k : Fin N, j ≤ k → side u 0 (b.control_points j) ≤ side u 0 (b.control_points k))
    (hlt : side u 0 (b.control_points ⟨0, by omega⟩)
      < side u 0 (b.control_points ⟨N - 1, by omega⟩))
    {t : ℝ} (h0 : 0 < t) (h1 : t < 1) :
    ∃ (d : Bezier P (N - 1)) (v : P), Bezier.derivative (S := ℝ) b = some d ∧ d.eval t = some v ∧
      0 < side u 0 v := by
  obtain ⟨d, hd, hdc⟩ := C35_partial (S := ℝ) b hN
  obtain ⟨v, hv, -⟩ := C30_eval d (by omega) t
  refine ⟨d, v, hd, hv, ?_⟩
  rw [side_bezier d (by omega) u hv]
  have hstep : ∀ k (hk : k ≤ N - 1 - 1), side u 0 (extend d.controlPoints k)
      = ((N - 1 : ℕ) : ℝ) * (side u 0 (extend b.controlPoints (k + 1))
        - side u 0 (extend b.controlPoints k)) := by
    intro k hk
    rw [extend_lt d.controlPoints (k := k) (by omega), extend_lt b.controlPoints (k := k) (by omega),
      extend_lt b.controlPoints (k := k + 1) (by omega)]
    have e : d.controlPoints ⟨k, by omega⟩ = _ := hdc ⟨k, by omega⟩
    rw [e]
    unfold side
    simp only [sub_zero]
    rw [← Finset.sum_sub_distrib, Finset.mul_sum]
    refine Finset.sum_congr rfl fun i _ => ?_
    rw [coord_mul, coord_sub]
    show u i * ((coord (b.control_points _) i - coord (b.control_points _) i) * ((N - 1 : ℕ) : ℝ)) = _
    show _ = ((N - 1 : ℕ) : ℝ) * (u i * coord (b.control_points _) i - u i * coord (b.control_points _) i)
    ring
  have hN1 : (0 : ℝ) < ((N - 1 : ℕ) : ℝ) := by exact_mod_cast (show 0 < N - 1 by omega)
  refine bsum_pos (fun k hk => ?_) ?_ h0 h1
  · rw [hstep k hk]
    refine mul_nonneg hN1.le (sub_nonneg.2 ?_)
    rw [extend_lt b.controlPoints (k := k) (by omega),
      extend_lt b.controlPoints (k := k + 1) (by omega)]
    exact hmono _ _ (by simp [Fin.le_def])
  · obtain ⟨k, hk, hpos⟩ := exists_rise (m := N - 1 - 1)
      (x := fun k => side u 0 (extend b.controlPoints k)) (by
        show side u 0 (extend b.controlPoints 0) < side u 0 (extend b.controlPoints (N - 1 - 1 + 1))
        rw [show N - 1 - 1 + 1 = N - 1 by omega, extend_lt b.controlPoints (k := 0) (by omega),
          extend_lt b.controlPoints (k := N - 1) (by omega)]
        exact hlt)
    exact ⟨k, hk, by rw [hstep k hk]; exact mul_pos hN1 hpos⟩

/-- **C117** for the cubic type: a direction in which no leg of the control polygon goes back
and some leg goes forward. -/
theorem C117_cubic (c : CubicBezier P) (u : ℕ → ℝ) (h01 : side u 0 c.start ≤ side u 0 c.ctrl1)
    (h12 : side u 0 c.ctrl1 ≤ side u 0 c.ctrl2) (h23 : side u 0 c.ctrl2 ≤ side u 0 c.end_)
    (hlt : side u 0 c.start < side u 0 c.end_) {s t : ℝ} (hs : 0 ≤ s ∧ s ≤ 1)
    (ht : 0 ≤ t ∧ t ≤ 1) (h : c.eval s = c.eval t) : s = t := by
  have he : ∀ t : ℝ, (Bezier.new ![c.start, c.ctrl1, c.ctrl2, c.end_]).eval t = some (c.eval t) :=
    fun t => C32_cubic_eval _ _ _ _ t
  refine C117_no_loop (Bezier.new ![c.start, c.ctrl1, c.ctrl2, c.end_]) (by norm_num) u ?_ ?_ hs ht
    (by rw [he, he, h])
  · intro j k hjk
    fin_cases j <;> fin_cases k <;> simp at hjk <;> simp [Bezier.new] <;> linarith
  · simpa [Bezier.new] using hlt

/-- **C117**: a quadratic curve whose control points are not on a line has no loops at all,
for whatever parameters. -/
theorem C117_quadratic (q : QuadraticBezier P) {i j : ℕ}
    (h : (coord q.ctrl i - coord q.start i) * (coord q.end_ j - coord q.ctrl j)
      ≠ (coord q.ctrl j - coord q.start j) * (coord q.end_ i - coord q.ctrl i))
    {s t : ℝ} (he : q.eval s = q.eval t) : s = t := by
  by_contra hne
  have key : ∀ m, (2 - (s + t)) * (coord q.ctrl m - coord q.start m)
      + (s + t) * (coord q.end_ m - coord q.ctrl m) = 0 := by
    intro m
    have := congrArg (fun p => coord p m) he
    simp only [C10_eval] at this
    have hst : s - t ≠ 0 := sub_ne_zero.2 hne
    refine (mul_eq_zero.1 (?_ : (s - t) * _ = 0)).resolve_left hst
    linear_combination this
  have hi := key i
  have hj := key j
  have h1 : (2 - (s + t)) * ((coord q.ctrl i - coord q.start i) * (coord q.end_ j - coord q.ctrl j)
      - (coord q.ctrl j - coord q.start j) * (coord q.end_ i - coord q.ctrl i)) = 0 := by
    linear_combination (coord q.end_ j - coord q.ctrl j) * hi
      - (coord q.end_ i - coord q.ctrl i) * hj
  have h2 : (s + t) * ((coord q.ctrl i - coord q.start i) * (coord q.end_ j - coord q.ctrl j)
      - (coord q.ctrl j - coord q.start j) * (coord q.end_ i - coord q.ctrl i)) = 0 := by
    linear_combination (coord q.ctrl i - coord q.start i) * hj
      - (coord q.ctrl j - coord q.start j) * hi
  have hd := sub_ne_zero.2 h
  have e1 := (mul_eq_zero.1 h1).resolve_right hd
  have e2 := (mul_eq_zero.1 h2).resolve_right hd
  linarith

/-- The hypothesis of `C117_cubic` cannot be dropped: this cubic curve passes through the same
point at 1/4 and at 3/4. -/
theorem C117_cubic_loop :
    let c := CubicBezier.new (pt2 0 0) (pt2 11 9) (pt2 (-2) 9) (pt2 9 0)
    c.eval (1 / 4 : ℝ) = c.eval (3 / 4 : ℝ) := by
  intro c
  apply point_ext
  intro i
  rcases i with _ | _ | i
  · rw [C20_eval, C20_eval]
    simp only [c, CubicBezier.new, coord_pt2_0]
    norm_num
  · rw [C20_eval, C20_eval]
    simp only [c, CubicBezier.new, coord_pt2_1]
    norm_num
  · rw [coord_out _ (show ¬ i + 1 + 1 < 2 by omega), coord_out _ (show ¬ i + 1 + 1 < 2 by omega)]

/-- The hypotheses are satisfiable: an S-shaped curve that goes right. -/
example {s t : ℝ} (hs : 0 ≤ s ∧ s ≤ 1) (ht : 0 ≤ t ∧ t ≤ 1)
    (h : (CubicBezier.new (pt2 0 0) (pt2 2 9) (pt2 2 (-9)) (pt2 4 0)).eval s
      = (CubicBezier.new (pt2 0 0) (pt2 2 9) (pt2 2 (-9)) (pt2 4 0)).eval t) : s = t := by
  refine C117_cubic (CubicBezier.new (pt2 0 0) (pt2 2 9) (pt2 2 (-9)) (pt2 4 0))
    (fun i => if i = 0 then 1 else 0) ?_ ?_ ?_ ?_ hs ht h <;>
  · have hd : Point.dim (PointN ℝ 2) = 2 := rfl
    simp only [side, hd, Finset.sum_range_succ, Finset.range_zero, Finset.sum_empty,
      CubicBezier.new, coord_pt2_0, coord_pt2_1]
    norm_num

example {s t : ℝ} (h : (QuadraticBezier.new (pt2 0 0) (pt2 1 5) (pt2 0 1)).eval s
    = (QuadraticBezier.new (pt2 0 0) (pt2 1 5) (pt2 0 1)).eval t) : s = t :=
  C117_quadratic (QuadraticBezier.new (pt2 0 0) (pt2 1 5) (pt2 0 1)) (i := 0) (j := 1) (by
    simp only [QuadraticBezier.new, coord_pt2_0, coord_pt2_1]
    norm_num) h

end Stroke
