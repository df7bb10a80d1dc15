import Verif.Lemmas.Exact
import Verif.Lemmas.Loops
import Verif.Lemmas.Sampling

/-!
# The two-pass search of `distance_to_point`, over the reals
-/

namespace Stroke

variable {P : Type} [Point ℝ P] [LawfulPoint P]

/-- One step of the coarse pass. -/
theorem coarse_step (f : ℝ → P) (p : P) (i : ℕ) (s : ℝ × ℝ) :
    (do
      let t := Scalar.ofUsize i * lit 1 / Scalar.ofUsize nstepsDistance
      let candidate ← some (f t)
      if Scalar.lt (Point.squaredLength (candidate - p)) s.2 then
        pure (t, Point.squaredLength (candidate - p))
      else pure s : Option (ℝ × ℝ))
    = some (if pdist (f ((i : ℝ) / 64)) p ^ 2 < s.2 then
        ((i : ℝ) / 64, pdist (f ((i : ℝ) / 64)) p ^ 2) else s) := by
  have e : (Scalar.ofUsize i * lit 1 / Scalar.ofUsize nstepsDistance : ℝ) = (i : ℝ) / 64 := by
    simp [nstepsDistance]
  simp only [e, Option.bind_eq_bind, Option.bind_some, squaredLength_sub, lt_real,
    decide_eq_true_eq, Option.pure_def]
  rw [← apply_ite some]

/-- One step of the fine pass. -/
theorem fine_step (f : ℝ → P) (p : P) (i : ℕ) (s : ℝ × ℝ) :
    (do
      let t := Scalar.ofUsize i * lit 1 / Scalar.ofUsize (nstepsDistance * nstepsDistance)
      let candidate ← some (f (s.1 + t - t * (Scalar.ofUsize nstepsDistance / lit 2)))
      if Scalar.lt (Point.squaredLength (candidate - p)) s.2 then
        pure (t, Point.squaredLength (candidate - p))
      else pure s : Option (ℝ × ℝ))
    = some (if pdist (f (s.1 - 31 * ((i : ℝ) / 4096))) p ^ 2 < s.2 then
        ((i : ℝ) / 4096, pdist (f (s.1 - 31 * ((i : ℝ) / 4096))) p ^ 2) else s) := by
  have e : (Scalar.ofUsize i * lit 1 / Scalar.ofUsize (nstepsDistance * nstepsDistance) : ℝ)
      = (i : ℝ) / 4096 := by
    simp [nstepsDistance]
  have e2 : s.1 + (i : ℝ) / 4096 - (i : ℝ) / 4096 * (Scalar.ofUsize nstepsDistance / lit 2)
      = s.1 - 31 * ((i : ℝ) / 4096) := by
    simp [nstepsDistance]; ring
  simp only [e, e2, Option.bind_eq_bind, Option.bind_some, squaredLength_sub, lt_real,
    decide_eq_true_eq, Option.pure_def]
  rw [← apply_ite some]

/-- The coarse pass finds the nearest of the samples `i/64`, i < 64. -/
theorem coarsePass_spec (f : ℝ → P) (p : P) :
    ∃ s, coarsePass (fun t => some (f t)) p (lit (1 / 2), Point.squaredLength (p - f 0)) = some s ∧
      (∀ i : ℕ, i < 64 → s.2 ≤ pdist (f ((i : ℝ) / 64)) p ^ 2) ∧
      (∃ u, 0 ≤ u ∧ u ≤ 63 / 64 ∧ s.2 = pdist (f u) p ^ 2) ∧ 0 ≤ s.1 ∧ s.1 ≤ 63 / 64 := by
  unfold coarsePass
  simp only [coarse_step]
  obtain ⟨s, hs, h⟩ := forRange_inv (m := Option) (lo := 0) (hi := nstepsDistance)
    (s := ((lit (1 / 2) : ℝ), Point.squaredLength (p - f 0)))
    (body := fun i s => some (if pdist (f ((i : ℝ) / 64)) p ^ 2 < s.2 then
        ((i : ℝ) / 64, pdist (f ((i : ℝ) / 64)) p ^ 2) else s))
    (fun i s => (∀ j : ℕ, j < i → s.2 ≤ pdist (f ((j : ℝ) / 64)) p ^ 2) ∧
      (∃ u, 0 ≤ u ∧ u ≤ 63 / 64 ∧ s.2 = pdist (f u) p ^ 2) ∧ 0 ≤ s.1 ∧ s.1 ≤ 63 / 64)
    (Nat.zero_le _)
    ⟨by omega, ⟨0, le_rfl, by norm_num, by rw [squaredLength_sub, pdist_comm]⟩,
      by rw [lit_real]; norm_num, by rw [lit_real]; norm_num⟩
    (by
      intro i s _ hi ⟨h1, h2, h3, h4⟩
      have hi' : i < 64 := hi
      have hr : (i : ℝ) ≤ 63 := by exact_mod_cast (by omega : i ≤ 63)
      refine ⟨_, rfl, ?_⟩
      split
      · rename_i hlt
        refine ⟨fun j hj => ?_, ⟨(i : ℝ) / 64, by positivity, by linarith, rfl⟩,
          by positivity, by simp only; linarith⟩
        rcases Nat.lt_succ_iff_lt_or_eq.1 hj with hj | rfl
        · exact hlt.le.trans (h1 j hj)
        · exact le_rfl
      · rename_i hlt
        refine ⟨fun j hj => ?_, h2, h3, h4⟩
        rcases Nat.lt_succ_iff_lt_or_eq.1 hj with hj | rfl
        · exact h1 j hj
        · exact not_lt.1 hlt)
  exact ⟨s, hs, h⟩

/-- The fine pass only improves the distance; its parameters may leave [0, 1] to the left. -/
theorem finePass_spec (f : ℝ → P) (p : P) (s0 : ℝ × ℝ) (h0 : 0 ≤ s0.1) (h1 : s0.1 ≤ 63 / 64)
    (hu : ∃ u, -(1953 / 4096) ≤ u ∧ u ≤ 63 / 64 ∧ s0.2 = pdist (f u) p ^ 2) :
    ∃ s, finePass (fun t => some (f t)) p s0 = some s ∧ s.2 ≤ s0.2 ∧
      ∃ u, -(1953 / 4096) ≤ u ∧ u ≤ 63 / 64 ∧ s.2 = pdist (f u) p ^ 2 := by
  unfold finePass
  simp only [fine_step]
  obtain ⟨s, hs, h⟩ := forRange_inv (m := Option) (lo := 0) (hi := nstepsDistance) (s := s0)
    (body := fun i s => some (if pdist (f (s.1 - 31 * ((i : ℝ) / 4096))) p ^ 2 < s.2 then
        ((i : ℝ) / 4096, pdist (f (s.1 - 31 * ((i : ℝ) / 4096))) p ^ 2) else s))
    (fun i s => s.2 ≤ s0.2 ∧ (∃ u, -(1953 / 4096) ≤ u ∧ u ≤ 63 / 64 ∧ s.2 = pdist (f u) p ^ 2) ∧
      0 ≤ s.1 ∧ s.1 ≤ 63 / 64)
    (Nat.zero_le _) ⟨le_rfl, hu, h0, h1⟩
    (by
      intro i s _ hi ⟨h1, h2, h3, h4⟩
      have hi' : i < 64 := hi
      have hr : (i : ℝ) ≤ 63 := by exact_mod_cast (by omega : i ≤ 63)
      have hr0 : (0 : ℝ) ≤ i := by positivity
      refine ⟨_, rfl, ?_⟩
      split
      · rename_i hlt
        exact ⟨hlt.le.trans h1, ⟨_, by linarith, by linarith, rfl⟩, by positivity,
          by simp only; linarith⟩
      · exact ⟨h1, h2, h3, h4⟩)
  exact ⟨s, hs, h.1, h.2.1⟩

/-- The value returned by `distance_to_point`. -/
theorem searchDistance_spec (f : ℝ → P) (p : P) :
    ∃ r, searchDistance (fun t => some (f t)) (f 0) p = some r ∧
      (∃ u, -(1953 / 4096) ≤ u ∧ u ≤ 63 / 64 ∧ r = pdist (f u) p) ∧
      ∀ i : ℕ, i < 64 → r ≤ pdist (f ((i : ℝ) / 64)) p := by
  obtain ⟨s1, h1, hmin, ⟨u, hu0, hu1, hu⟩, hs0, hs1⟩ := coarsePass_spec f p
  obtain ⟨s2, h2, hle, ⟨w, hw0, hw1, hw⟩⟩ := finePass_spec f p s1 hs0 hs1
    ⟨u, by linarith, hu1, hu⟩
  refine ⟨Real.sqrt s2.2, ?_, ⟨w, hw0, hw1, ?_⟩, fun i hi => ?_⟩
  · unfold searchDistance
    simp only []
    rw [h1]
    simp only [Option.bind_eq_bind, Option.bind_some]
    rw [h2]; rfl
  · rw [hw, Real.sqrt_sq (pdist_nonneg _ _)]
  · rw [← Real.sqrt_sq (pdist_nonneg (f ((i : ℝ) / 64)) p)]
    exact Real.sqrt_le_sqrt (hle.trans (hmin i hi))

omit [LawfulPoint P] in
/-- The sampling resolution: a curve that is Lipschitz on [0, 1] is at most `V / 64`
closer than the returned value. -/
theorem searchDistance_upper {f : ℝ → P} {p : P} {r V : ℝ}
    (hr : ∀ i : ℕ, i < 64 → r ≤ pdist (f ((i : ℝ) / 64)) p)
    (hV : ∀ x y : ℝ, 0 ≤ x → x ≤ y → y ≤ 1 → pdist (f x) (f y) ≤ V * (y - x))
    {t : ℝ} (h0 : 0 ≤ t) (h1 : t ≤ 1) : r ≤ pdist (f t) p + V / 64 := by
  have hV0 : 0 ≤ V := by
    have := hV 0 1 le_rfl zero_le_one le_rfl
    have h2 := pdist_nonneg (f 0) (f 1)
    linarith
  obtain ⟨i, hi, hle, hgt⟩ : ∃ i : ℕ, i < 64 ∧ (i : ℝ) / 64 ≤ t ∧ t ≤ (i : ℝ) / 64 + 1 / 64 := by
    by_cases ht : t < 1
    · refine ⟨⌊t * 64⌋₊, ?_, ?_, ?_⟩
      · rw [Nat.floor_lt (by positivity)]
        norm_num; linarith
      · have := Nat.floor_le (show 0 ≤ t * 64 by positivity)
        linarith
      · have := Nat.lt_floor_add_one (t * 64)
        linarith
    · have : t = 1 := le_antisymm h1 (not_lt.1 ht)
      exact ⟨63, by norm_num, by rw [this]; norm_num, by rw [this]; norm_num⟩
  have h2 := hV ((i : ℝ) / 64) t (by positivity) hle h1
  have h3 := pdist_triangle (f ((i : ℝ) / 64)) (f t) p
  have h4 := hr i hi
  have h5 : V * (t - (i : ℝ) / 64) ≤ V * (1 / 64) :=
    mul_le_mul_of_nonneg_left (by linarith) hV0
  linarith

/-- A curve for which the fine pass leaves [0, 1] and hits the query point exactly. -/
theorem searchDistance_escape {f : ℝ → P} {p : P}
    (hd : ∀ t : ℝ, pdist (f t) p ^ 2
      = (4096 * t + 1176) ^ 2 * (1 + (4096 * t - 64) ^ 2)) :
    searchDistance (fun t => some (f t)) (f 0) p = some 0 := by
  have hc : coarsePass (fun t => some (f t)) p (lit (1 / 2), Point.squaredLength (p - f 0))
      = some (1 / 64, 1240 ^ 2) := by
    unfold coarsePass
    simp only [coarse_step]
    have h0 : pdist (f 0) p ^ 2 = 1176 ^ 2 * (1 + 64 ^ 2) := by rw [hd]; norm_num
    obtain ⟨s, hs, h⟩ := forRange_inv (m := Option) (lo := 0) (hi := nstepsDistance)
      (s := ((lit (1 / 2) : ℝ), Point.squaredLength (p - f 0)))
      (body := fun i s => some (if pdist (f ((i : ℝ) / 64)) p ^ 2 < s.2 then
          ((i : ℝ) / 64, pdist (f ((i : ℝ) / 64)) p ^ 2) else s))
      (fun i s => (i ≤ 1 → s = (1 / 2, 1176 ^ 2 * (1 + 64 ^ 2))) ∧
        (2 ≤ i → s = (1 / 64, 1240 ^ 2)))
      (Nat.zero_le _)
      ⟨fun _ => by rw [squaredLength_sub, pdist_comm, h0, lit_real]; norm_num, by omega⟩
      (by
        intro i s _ hi ⟨h1, h2⟩
        refine ⟨_, rfl, ?_⟩
        rcases Nat.lt_or_ge i 1 with hi0 | hi0
        · have : i = 0 := by omega
          subst this
          refine ⟨fun _ => ?_, by omega⟩
          rw [h1 (by omega)]
          simp only [Nat.cast_zero, zero_div]
          rw [if_neg (by rw [h0]; exact lt_irrefl _)]
        · rcases Nat.lt_or_ge i 2 with hi1 | hi1
          · have : i = 1 := by omega
            subst this
            refine ⟨by omega, fun _ => ?_⟩
            rw [h1 le_rfl, hd]
            norm_num
          · refine ⟨by omega, fun _ => ?_⟩
            rw [h2 hi1, if_neg]
            rw [not_lt, hd]
            have hr : (2 : ℝ) ≤ i := by exact_mod_cast hi1
            have e1 : 4096 * ((i : ℝ) / 64) + 1176 = 64 * i + 1176 := by ring
            rw [e1]
            have h3 : (1240 : ℝ) ^ 2 ≤ (64 * i + 1176) ^ 2 :=
              pow_le_pow_left₀ (by norm_num) (by linarith) 2
            nlinarith [sq_nonneg (4096 * ((i : ℝ) / 64) - 64), sq_nonneg (64 * (i : ℝ) + 1176),
              mul_nonneg (sq_nonneg (64 * (i : ℝ) + 1176))
                (sq_nonneg (4096 * ((i : ℝ) / 64) - 64))])
    have := h.2 (by decide)
    rw [hs, this]; rfl
  have hf : ∃ s, finePass (fun t => some (f t)) p (1 / 64, 1240 ^ 2) = some s ∧ s.2 = 0 := by
    unfold finePass
    simp only [fine_step]
    obtain ⟨s, hs, h⟩ := forRange_inv (m := Option) (lo := 0) (hi := nstepsDistance)
      (s := ((1 / 64, 1240 ^ 2) : ℝ × ℝ))
      (body := fun i s => some (if pdist (f (s.1 - 31 * ((i : ℝ) / 4096))) p ^ 2 < s.2 then
        ((i : ℝ) / 4096, pdist (f (s.1 - 31 * ((i : ℝ) / 4096))) p ^ 2) else s))
      (fun i s => (i ≤ 40 → s = (1 / 64, 1240 ^ 2)) ∧ (41 ≤ i → s.2 = 0))
      (Nat.zero_le _) ⟨fun _ => rfl, by omega⟩
      (by
        intro i s _ hi ⟨h1, h2⟩
        refine ⟨_, rfl, ?_⟩
        have hval : pdist (f (1 / 64 - 31 * ((i : ℝ) / 4096))) p ^ 2
            = (31 * (40 - i)) ^ 2 * (1 + (31 * i) ^ 2) := by
          rw [hd]; ring
        rcases Nat.lt_or_ge i 40 with hi0 | hi0
        · refine ⟨fun _ => ?_, by omega⟩
          rw [h1 hi0.le]
          simp only []
          rw [if_neg]
          rw [not_lt, hval]
          rcases Nat.eq_zero_or_pos i with rfl | hpos
          · norm_num
          · have a1 : (1 : ℝ) ≤ i := by exact_mod_cast hpos
            have a2 : (i : ℝ) ≤ 39 := by exact_mod_cast (by omega : i ≤ 39)
            have a3 : 39 ≤ (40 - (i : ℝ)) * i := by nlinarith
            have a4 : (39 : ℝ) ^ 2 ≤ ((40 - (i : ℝ)) * i) ^ 2 :=
              pow_le_pow_left₀ (by norm_num) a3 2
            nlinarith [sq_nonneg (31 * (40 - (i : ℝ)))]
        · rcases Nat.lt_or_ge i 41 with hi1 | hi1
          · have : i = 40 := by omega
            subst this
            refine ⟨by omega, fun _ => ?_⟩
            rw [h1 le_rfl]
            simp only []
            rw [hval]
            norm_num
          · refine ⟨by omega, fun _ => ?_⟩
            rw [if_neg]
            · exact h2 hi1
            · rw [h2 hi1, not_lt]; exact sq_nonneg _)
    exact ⟨s, hs, h.2 (by decide)⟩
  obtain ⟨s, hs, h0⟩ := hf
  unfold searchDistance
  simp only []
  rw [hc]
  simp only [Option.bind_eq_bind, Option.bind_some]
  rw [hs]
  simp [h0]

end Stroke
