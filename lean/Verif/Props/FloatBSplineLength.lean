import Verif.Props.FloatArcLength
import Verif.Props.FloatSampling
import Verif.Props.FloatBSplineError

/-!
# Rounding error of the B-spline's `arclen` (C98)

`BSpline::arclen` adds the distances of the pairs of points it evaluates (which points these are:
C53, C99, C126). However those points came about, the sum itself is computed with a small relative
error.
-/

set_option linter.unusedSectionVars false

namespace Stroke

open Fl

variable {F : FloatFormat} {n K C D : ℕ}

/-- One more summand: the error of the sum so far, of the distance and of the addition. -/
theorem sum_rel_step {u η T Z A x s d y g h W : ℝ} (u0 : 0 ≤ u) (η0 : 0 ≤ η) (T0 : 0 ≤ T)
    (x0 : 0 ≤ x) (hgh : g ≤ h) (hZ : Z = T + η) (W1 : 1 ≤ W) {i : ℝ}
    (hs : |s - A| ≤ (h - 1) * A + W * (i * Z)) (hd : |d - x| ≤ (g - 1) * x + T)
    (hy : |y - (s + d)| ≤ u * (s + d) + η) :
    |y - (A + x)| ≤ (h * (1 + u) - 1) * (A + x) + W * (1 + u) * ((i + 1) * Z) ∧
      s + d ≤ h * (A + x) + W * ((i + 1) * Z) := by
  rw [abs_le] at hs hd hy
  have h1 : (g - 1) * x ≤ (h - 1) * x := mul_le_mul_of_nonneg_right (by linarith) x0
  have Z0 : 0 ≤ Z := by linarith
  have hsd : s + d ≤ h * (A + x) + W * (i * Z) + T := by
    have e : h * (A + x) = A + x + (h - 1) * A + (h - 1) * x := by ring
    linarith [hs.2, hd.2]
  have hZW : Z ≤ W * Z := le_mul_of_one_le_left Z0 W1
  have hu := mul_le_mul_of_nonneg_left hsd u0
  have e1 : (h * (1 + u) - 1) * (A + x) = (h - 1) * A + (h - 1) * x + u * (h * (A + x)) := by ring
  have e2 : W * (1 + u) * ((i + 1) * Z) = W * (i * Z) + u * (W * (i * Z)) + W * Z + u * (W * Z) := by
    ring
  have e3 : u * (h * (A + x) + W * (i * Z) + T)
      = u * (h * (A + x)) + u * (W * (i * Z)) + u * T := by ring
  have h2 : u * T ≤ u * (W * Z) := mul_le_mul_of_nonneg_left (by linarith) u0
  have e4 : W * ((i + 1) * Z) = W * (i * Z) + W * Z := by ring
  refine ⟨?_, by linarith⟩
  rw [abs_le]
  constructor <;> linarith [hs.1, hs.2, hd.1, hd.2, hy.1, hy.2]

/-- **C98**, `BSpline::arclen`: `p i` and `q i` are the points that `arclen(k)` evaluates (the start
and the end of its `i`-th chord, the origin where evaluation is an error). The result is finite and
its error relative to the sum of their distances is that of `n + k + 4` rounded operations. -/
theorem C98_bspline (b : BSpline (Fl F) (PointN (Fl F) n) K C D) {k : ℕ} (hu : F.u ≤ 1 / 1024)
    (he : F.eta ≤ 1 / 1024) {lo hi : Fl F} (hdom : b.knotDomain = some (lo, hi))
    (p q : ℕ → PointN (Fl F) n)
    (hp : ∀ i ≤ k, b.evalOrDefault (sampleParam lo hi i k) = some (p i))
    (hq : ∀ i ≤ k, b.evalOrDefault (sampleParam lo hi i k + lit 1 / Scalar.ofUsize k) = some (q i))
    {B L : ℝ} (hB : 0 ≤ B) (bp : ∀ i ≤ k, BoundedBy B (p i)) (bq : ∀ i ≤ k, BoundedBy B (q i))
    (hB1 : 5 / 2 * B + 1 ≤ F.max)
    (hmax : (1 + F.u) ^ (n + 1) * (n * (5 / 2 * B + 1) ^ 2) + 2 * n * (1 + F.u) ^ n * F.eta
      ≤ F.max)
    (hL : L = ∑ i ∈ Finset.range (k + 1), pdist (p i).real (q i).real)
    (hsum : (1 + F.u) ^ (n + k + 4) * L + (1 + F.u) ^ (k + 1) * ((k + 1) * (distTiny F n + F.eta))
      ≤ F.max) :
    ∃ r, b.arclen k = some r ∧ r.IsFinite ∧ 0 ≤ r.toReal ∧
      |r.toReal - L| ≤ ((1 + F.u) ^ (n + k + 4) - 1) * L
        + (1 + F.u) ^ (k + 1) * ((k + 1) * (distTiny F n + F.eta)) := by
  have u0 := F.u_nonneg
  have e0 := F.eta_nonneg
  have hT := distTiny_nonneg F n
  set P : ℕ → ℝ := fun i => pdist (p i).real (q i).real with hP
  have P0 : ∀ i, 0 ≤ P i := fun i => pdist_nonneg _ _
  set A : ℕ → ℝ := fun i => ∑ j ∈ Finset.range i, P j with hA
  have A0 : ∀ i, 0 ≤ A i := fun i => Finset.sum_nonneg fun j _ => P0 j
  have As : ∀ i, A (i + 1) = A i + P i := fun i => Finset.sum_range_succ _ _
  have Am : ∀ i ≤ k + 1, A i ≤ A (k + 1) := fun i hi => Finset.sum_le_sum_of_subset_of_nonneg
    (Finset.range_mono hi) fun j _ _ => P0 j
  have hLA : L = A (k + 1) := hL
  rw [arclen_samples, hdom]
  obtain ⟨r, hr, hrf, hr0, hre⟩ := forRange_inv (m := Option)
    (fun i (s : Fl F) => s.IsFinite ∧ 0 ≤ s.toReal ∧
      |s.toReal - A i| ≤ ((1 + F.u) ^ (n + 3 + i) - 1) * A i
        + (1 + F.u) ^ i * (i * (distTiny F n + F.eta)))
    (lo := 0) (hi := k + 1) (s := (lit 0 : Fl F))
    (body := fun i (arclen : Fl F) => do
      let p1 ← b.evalOrDefault (sampleParam lo hi i k)
      let p2 ← b.evalOrDefault (sampleParam lo hi i k + lit 1 / Scalar.ofUsize k)
      pure (arclen + Scalar.sqrt (Point.squaredLength (p1 - p2))))
    (by omega) (by
      rw [lit_zero]
      refine ⟨trivial, le_rfl, ?_⟩
      simp [hA]) (by
      rintro i s - hik ⟨sf, s0, hs⟩
      have hik' : i ≤ k := by omega
      have hsq := sq_finite_of_bounded hu he (bp i hik') (bq i hik') hB hB1 hmax
      obtain ⟨_, df, d0, hd⟩ := C88_point_distance _ _ hsq
      obtain ⟨sv, hsv, rfl⟩ := isFinite_iff.1 sf
      obtain ⟨d, hdv, ed⟩ := isFinite_iff.1 df
      rw [ed, toReal_fin] at d0 hd
      rw [toReal_fin] at s0 hs
      refine ⟨fin sv hsv + fin d hdv, ?_, ?_⟩
      · simp only [hp i hik', hq i hik', ← ed]
        rfl
      have gh : (1 + F.u) ^ (n + 3) ≤ (1 + F.u) ^ (n + 3 + i) :=
        pow_le_pow_right₀ (by linarith) (by omega)
      have W1 := one_le_g (F := F) i
      obtain ⟨-, hle⟩ := sum_rel_step (y := F.rnd (sv + d)) u0 e0 hT (P0 i)
        gh rfl W1 hs hd (by
          have := F.rnd_err (sv + d)
          rwa [abs_of_nonneg (show 0 ≤ sv + d by linarith)] at this)
      obtain ⟨herr, -⟩ := sum_rel_step (y := F.rnd (sv + d)) u0 e0 hT (P0 i)
        gh rfl W1 hs hd (by
          have := F.rnd_err (sv + d)
          rwa [abs_of_nonneg (show 0 ≤ sv + d by linarith)] at this)
      have hsd : |sv + d| ≤ F.max := by
        rw [abs_of_nonneg (by linarith)]
        have m1 : (1 + F.u) ^ (n + 3 + i) * (A i + P i) ≤ (1 + F.u) ^ (n + k + 4) * L := by
          refine mul_le_mul (pow_le_pow_right₀ (by linarith) (by omega)) ?_
            (by linarith [A0 i, P0 i]) (by positivity)
          rw [← As, hLA]
          exact Am _ (by omega)
        have m2 : (1 + F.u) ^ i * (((i : ℝ) + 1) * (distTiny F n + F.eta))
            ≤ (1 + F.u) ^ (k + 1) * ((k + 1) * (distTiny F n + F.eta)) := by
          have hki : (i : ℝ) ≤ k := by exact_mod_cast hik'
          refine mul_le_mul (pow_le_pow_right₀ (by linarith) (by omega))
            (mul_le_mul_of_nonneg_right (by linarith) (by linarith)) (by positivity) (by positivity)
        linarith
      rw [fin_add, F.round_of_le hsd]
      refine ⟨trivial, F.rnd_nonneg (by linarith), ?_⟩
      rw [toReal_fin, As, show n + 3 + (i + 1) = n + 3 + i + 1 by ring, pow_succ, pow_succ _ i,
        Nat.cast_succ]
      exact herr)
  refine ⟨r, hr, hrf, hr0, ?_⟩
  rw [hLA]
  rw [show n + 3 + (k + 1) = n + k + 4 by ring] at hre
  push_cast at hre
  exact hre

/-- In exact terms, points with coordinates of magnitude at most `M` are at most `2 n M` apart. -/
theorem pdist_le_of_bounded {p q : PointN (Fl F) n} {M : ℝ} (hM : 0 ≤ M) (hp : BoundedBy M p)
    (hq : BoundedBy M q) : pdist p.real q.real ≤ 2 * n * M := by
  unfold pdist
  rw [Real.sqrt_le_left (by positivity), ← Fin.sum_univ_eq_sum_range
    (fun i => (coord p.real i - coord q.real i) ^ 2)]
  show ∑ i : Fin n, (coord p.real i - coord q.real i) ^ 2 ≤ _
  have h1 : ∀ i : Fin n, (coord p.real i - coord q.real i) ^ 2 ≤ (2 * M) ^ 2 := by
    intro i
    have e : ∀ p : PointN (Fl F) n, coord p.real i = (p.coords i).toReal := by
      intro p
      exact coord_pn _ _ i
    rw [e, e, sq_le_sq, abs_of_nonneg (show 0 ≤ 2 * M by linarith)]
    have a1 := abs_le.1 (hp i).2
    have a2 := abs_le.1 (hq i).2
    rw [abs_le]
    constructor <;> linarith
  refine (Finset.sum_le_sum fun i _ => h1 i).trans ?_
  rw [Finset.sum_const, Finset.card_univ, Fintype.card_fin, nsmul_eq_mul]
  have h2 : (n : ℝ) ≤ n ^ 2 := by
    rcases Nat.eq_zero_or_pos n with rfl | hn
    · simp
    · have : (1 : ℝ) ≤ n := by exact_mod_cast hn
      nlinarith
  nlinarith [sq_nonneg M]

/-- What `eval` returns inside a span of a clamped spline is no larger than its control points,
up to rounding. -/
theorem bspline_bounded_of_span {knots : Arr (Fl F) K} {ps : Arr (PointN (Fl F) n) C}
    {b : BSpline (Fl F) (PointN (Fl F) n) K C D}
    (h : BSpline.new knots ps = .ok b) (hk : FiniteKnots knots)
    (hspan : ∀ i j : Fin K, (knots j).toReal - (knots i).toReal ≤ F.max)
    (hu : F.u ≤ 1 / 1024) (he : F.eta ≤ F.epsilon * F.u)
    {t M : ℝ} (ht : t ∈ F.grid ∧ |t| ≤ F.max) {k : ℕ} (hDk : D ≤ k) (hkC : k < C)
    (ht1 : knotAt (fun i => (knots i).toReal) k ≤ t)
    (ht2 : t < knotAt (fun i => (knots i).toReal) (k + 1))
    (e1 : b.eval (fin t ht) = b.deBoorIterative (fin t ht))
    (e2 : b.knotSpanStart (fin t ht) = some (some k)) {hCK : C < K}
    (e3 : Scalar.eq (fin t ht) (b.knots ⟨C, hCK⟩) = false)
    (hM : ∀ i, BoundedBy M (ps i))
    (hmax : ((1 + F.u) ^ 2 * (1 + F.u + F.eta)) ^ D * (M + D * (3 * (1 + F.u) * F.eta)) ≤ F.max) :
    ∃ q, b.eval (fin t ht) = .ok q ∧
      BoundedBy (((1 + F.u) ^ 2 * (1 + F.u + F.eta)) ^ D * (M + D * (3 * (1 + F.u) * F.eta))) q := by
  have hm := knots_mono h hk
  obtain ⟨v1, v2, v3, hbeq⟩ := (new_generic _ _ _).1 h
  have hkn : b.knots = knots := by rw [hbeq]
  have hps : b.control_points = ps := by rw [hbeq]
  have hal : ∀ r j, ∃ α : Fl F, 1 ≤ r → r ≤ j → j ≤ D →
      BSpline.alpha (D := D) b.knots (fin t ht) k r j = .ok α ∧ α.IsFinite ∧ 0 ≤ α.toReal ∧
      α.toReal ≤ 1 := by
    intro r j
    by_cases hrj : 1 ≤ r ∧ r ≤ j ∧ j ≤ D
    · obtain ⟨α, hα, a1, a2, a3, -⟩ := alpha_float hk hm hspan hu he ht hDk (by omega) hrj.1 hrj.2.1
        hrj.2.2 ht1 ht2
      exact ⟨fin α hα, fun _ _ _ => ⟨by rw [hkn]; exact a1, trivial, a2, a3⟩⟩
    · exact ⟨nan, fun h1 h2 h3 => absurd ⟨h1, h2, h3⟩ hrj⟩
  choose a ha using hal
  refine ⟨_, e1.trans (deBoorIterative_gen b v2 (fin t ht) k e3 e2 hDk hkC.le
    (a := a) fun r j h1 h2 h3 => (ha r j h1 h2 h3).1), fun c => ?_⟩
  have hM0 : 0 ≤ M := (abs_nonneg _).trans (hM ⟨0, by omega⟩ c).2
  set x : ℕ → PointN (Fl F) n :=
    fun j => if j < D then extend b.control_points (j + k - D) else Point.default with hx
  have hxj : ∀ j, j < D + 1 → ((x j).coords c).IsFinite ∧ |((x j).coords c).toReal| ≤ M := by
    intro j hj
    rw [hx]
    beta_reduce
    split_ifs with hjD
    · rw [hps, extend_lt ps (show j + k - D < C by omega)]
      exact hM _ c
    · show (lit 0 : Fl F).IsFinite ∧ |(lit 0 : Fl F).toReal| ≤ M
      rw [lit_zero, toReal_fin, abs_zero]
      exact ⟨trivial, hM0⟩
  obtain ⟨v, hv, ev, dv⟩ := dbg_error (x := x) (a := a) (m := D + 1) c
    (fun r j h1 h2 h3 => (ha r j h1 h2 (by omega)).2) hxj D hmax D (Nat.lt_succ_self D)
  rw [ev]
  refine ⟨trivial, ?_⟩
  have hbt := dbr_between (n := D + 1) (lo := -M) (hi := M)
    (x := fun j => ((x j).coords c).toReal) (a := fun r j => (a r j).toReal)
    (fun r j h1 h2 h3 => (ha r j h1 h2 (by omega)).2.2)
    (fun j hj => abs_le.1 (hxj j hj).2) D D (Nat.lt_succ_self D)
  have dv' : |v - dbr (fun r j => (a r j).toReal) (fun j => ((x j).coords c).toReal) D D|
      ≤ ((1 + F.u) ^ 2 * (1 + F.u + F.eta)) ^ D * (M + D * (3 * (1 + F.u) * F.eta)) - M := dv
  rw [toReal_fin, abs_le]
  rw [abs_le] at dv'
  constructor <;> linarith [hbt.1, hbt.2, dv'.1, dv'.2]

/-- Whatever the parameter (NaN and infinities included), the point `arclen` works with is finite
and no larger than the control points, up to rounding. -/
theorem evalOrDefault_bounded {knots : Arr (Fl F) K} {ps : Arr (PointN (Fl F) n) C}
    {b : BSpline (Fl F) (PointN (Fl F) n) K C D}
    (h : BSpline.new knots ps = .ok b) (hk : FiniteKnots knots) (hf : ClampedFront D knots)
    (hb : ClampedBack D knots)
    (hspan : ∀ i j : Fin K, (knots j).toReal - (knots i).toReal ≤ F.max)
    (hu : F.u ≤ 1 / 1024) (he : F.eta ≤ F.epsilon * F.u) {M : ℝ} (hM0 : 0 ≤ M)
    (hM : ∀ i, BoundedBy M (ps i))
    (hmax : ((1 + F.u) ^ 2 * (1 + F.u + F.eta)) ^ D * (M + D * (3 * (1 + F.u) * F.eta)) ≤ F.max)
    (t : Fl F) :
    ∃ q, b.evalOrDefault t = some q ∧
      BoundedBy (((1 + F.u) ^ 2 * (1 + F.u + F.eta)) ^ D * (M + D * (3 * (1 + F.u) * F.eta))) q := by
  have u0 := F.u_nonneg
  have n0 := F.eta_nonneg
  have hMB : M ≤ ((1 + F.u) ^ 2 * (1 + F.u + F.eta)) ^ D * (M + D * (3 * (1 + F.u) * F.eta)) := by
    have g1 : 1 ≤ ((1 + F.u) ^ 2 * (1 + F.u + F.eta)) ^ D :=
      one_le_pow₀ (one_le_mul_of_one_le_of_one_le (one_le_pow₀ (by linarith)) (by linarith))
    have g2 : M ≤ M + D * (3 * (1 + F.u) * F.eta) := le_add_of_nonneg_right (by positivity)
    exact g2.trans (le_mul_of_one_le_left (hM0.trans g2) g1)
  obtain ⟨lo, hi, hd, hin⟩ := C47_float_clamped h hk hf hb hspan
  obtain ⟨lo', hi', hd', _, hout⟩ := C46_float h hk
  rw [hd, Option.some.injEq, Prod.mk.injEq] at hd'
  obtain ⟨rfl, rfl⟩ := hd'
  by_cases htd : (Scalar.le lo t && Scalar.le t hi) = true
  swap
  · refine ⟨Point.default, by rw [BSpline.evalOrDefault, hout t (by simpa using htd)], fun c => ?_⟩
    show (lit 0 : Fl F).IsFinite ∧ |(lit 0 : Fl F).toReal| ≤ _
    rw [lit_zero, toReal_fin, abs_zero]
    exact ⟨trivial, hM0.trans hMB⟩
  rw [Bool.and_eq_true] at htd
  have hm := (anyDecrease_finiteKnots hk).1 ((new_generic _ _ _).1 h).2.2.1
  obtain ⟨v1, v2, -, hbeq⟩ := (new_generic _ _ _).1 h
  have hkn : b.knots = knots := by rw [hbeq]
  have hd2 : b.knotDomain = some (knots ⟨D, by omega⟩, knots ⟨C, by omega⟩) := by
    rw [frontB_true hk hf, backB_true hk hb] at hbeq
    have hkind : b.knot_kind = .Clamped := by rw [hbeq]; rfl
    rw [BSpline.knotDomain, hkind]
    simp only [BSpline.knotDomainClamped]
    rw [usub_le (by omega)]
    simp only [Option.bind_eq_bind, Option.bind_some]
    rw [usub_le (by omega), hkn, Arr.get?_lt _ (show D < K by omega)]
    simp only [Option.bind_some]
    rw [Arr.get?_lt _ (show K - 1 - D < K by omega)]
    simp only [Option.bind_some, show K - 1 - D = C by omega]
    rfl
  rw [hd, Option.some.injEq, Prod.mk.injEq] at hd2
  obtain ⟨elo, ehi⟩ := hd2
  obtain ⟨x, hx, ex⟩ := isFinite_iff.1 (hk ⟨D, by omega⟩)
  obtain ⟨y, hy, ey⟩ := isFinite_iff.1 (hk ⟨C, by omega⟩)
  rw [elo, ex, ehi, ey] at htd
  obtain ⟨ht1, ht2⟩ := htd
  obtain ⟨r, hr, rfl⟩ : ∃ r hr, t = fin r hr := by
    cases t with
    | nan => simp at ht1
    | inf s =>
      exfalso
      cases s
      · change decide ((⊤ : EReal) ≤ ((y : ℝ) : EReal)) = true at ht2
        simp at ht2
      · change decide (((x : ℝ) : EReal) ≤ (⊥ : EReal)) = true at ht1
        simp at ht1
    | fin r hr => exact ⟨r, hr, rfl⟩
  rw [le_fin] at ht1 ht2
  rcases eq_or_lt_of_le ht2 with rfl | ht2
  · have := C49_float_end h hk (show C < K by omega) (show C - 1 < C by omega)
    rw [ey] at this
    exact ⟨_, by rw [BSpline.evalOrDefault, this], fun c => ⟨(hM _ c).1, (hM _ c).2.trans hMB⟩⟩
  have e : C - 1 + 1 = C := by omega
  have kD : knotAt (fun i => (knots i).toReal) D = x := by
    rw [knotAt_lt _ (show D < K by omega), ex, toReal_fin]
  have kC : knotAt (fun i => (knots i).toReal) C = y := by
    rw [knotAt_lt _ (show C < K by omega), ey, toReal_fin]
  obtain ⟨k, -, h3, h4, h5, h6⟩ := spanLoop_spec (knots := fun i => (knots i).toReal) hm r _ D (C - 1)
    le_rfl (by omega) (by rw [kD]; exact ht1) (by rw [e, kC]; exact ht2) (by omega)
  obtain ⟨s1, s2, hCK, s3⟩ := eval_float_span h hk hf hb hr h3 (by omega) h5 h6
  obtain ⟨q, hq, hqb⟩ := bspline_bounded_of_span h hk hspan hu he hr h3 (by omega) h5 h6 s1 s2 s3 hM
    hmax
  exact ⟨q, by rw [BSpline.evalOrDefault, hq], hqb⟩

/-- **C98**, `BSpline::arclen` on a clamped spline: whenever the control points and the number of
steps leave room below the largest finite value, every point it evaluates is finite, and the result
is finite and differs from the sum `L` of the distances between those points by no more than
`n + k + 4` rounded operations account for. Nothing is assumed about the evaluated points. -/
theorem C98_bspline_clamped {knots : Arr (Fl F) K} {ps : Arr (PointN (Fl F) n) C}
    {b : BSpline (Fl F) (PointN (Fl F) n) K C D}
    (h : BSpline.new knots ps = .ok b) (hk : FiniteKnots knots) (hf : ClampedFront D knots)
    (hb : ClampedBack D knots)
    (hspan : ∀ i j : Fin K, (knots j).toReal - (knots i).toReal ≤ F.max)
    (hu : F.u ≤ 1 / 1024) (he : F.eta ≤ F.epsilon * F.u) (he' : F.eta ≤ 1 / 1024)
    {M B : ℝ} (hM0 : 0 ≤ M) (hM : ∀ i, BoundedBy M (ps i)) {k : ℕ}
    (hB : B = ((1 + F.u) ^ 2 * (1 + F.u + F.eta)) ^ D * (M + D * (3 * (1 + F.u) * F.eta)))
    (hB1 : 5 / 2 * B + 1 ≤ F.max)
    (hmax : (1 + F.u) ^ (n + 1) * (n * (5 / 2 * B + 1) ^ 2) + 2 * n * (1 + F.u) ^ n * F.eta
      ≤ F.max)
    (hsum : (1 + F.u) ^ (n + k + 4) * ((k + 1) * (2 * n * B))
      + (1 + F.u) ^ (k + 1) * ((k + 1) * (distTiny F n + F.eta)) ≤ F.max) :
    ∃ (lo hi : Fl F) (p q : ℕ → PointN (Fl F) n) (r : Fl F), b.knotDomain = some (lo, hi) ∧
      (∀ i, b.evalOrDefault (sampleParam lo hi i k) = some (p i) ∧ FinitePoint (p i)) ∧
      (∀ i, b.evalOrDefault (sampleParam lo hi i k + lit 1 / Scalar.ofUsize k) = some (q i) ∧
        FinitePoint (q i)) ∧
      b.arclen k = some r ∧ r.IsFinite ∧ 0 ≤ r.toReal ∧
      |r.toReal - ∑ i ∈ Finset.range (k + 1), pdist (p i).real (q i).real|
        ≤ ((1 + F.u) ^ (n + k + 4) - 1) * (∑ i ∈ Finset.range (k + 1), pdist (p i).real (q i).real)
          + (1 + F.u) ^ (k + 1) * ((k + 1) * (distTiny F n + F.eta)) := by
  have u0 := F.u_nonneg
  have n0 := F.eta_nonneg
  have hB0 : 0 ≤ B := by rw [hB]; positivity
  have hev := evalOrDefault_bounded h hk hf hb hspan hu he hM0 hM (by rw [← hB]; linarith)
  rw [← hB] at hev
  obtain ⟨lo, hi, hd, -⟩ := C46_float h hk
  choose p hp using fun i : ℕ => hev (sampleParam lo hi i k)
  choose q hq using fun i : ℕ => hev (sampleParam lo hi i k + lit 1 / Scalar.ofUsize k)
  have hL : ∑ i ∈ Finset.range (k + 1), pdist (p i).real (q i).real ≤ (k + 1) * (2 * n * B) := by
    refine (Finset.sum_le_sum fun i _ => pdist_le_of_bounded hB0 (hp i).2 (hq i).2).trans ?_
    rw [Finset.sum_const, Finset.card_range, nsmul_eq_mul]
    push_cast
    exact le_rfl
  obtain ⟨r, hr, rf, r0, re⟩ := C98_bspline b (k := k) hu he' hd p q (fun i _ => (hp i).1)
    (fun i _ => (hq i).1) hB0 (fun i _ => (hp i).2) (fun i _ => (hq i).2) hB1 hmax rfl
    (le_trans (by
      have := mul_le_mul_of_nonneg_left hL (show 0 ≤ (1 + F.u) ^ (n + k + 4) by positivity)
      linarith) hsum)
  exact ⟨lo, hi, p, q, r, hd, fun i => ⟨(hp i).1, fun c => ((hp i).2 c).1⟩,
    fun i => ⟨(hq i).1, fun c => ((hq i).2 c).1⟩, hr, rf, r0, re⟩

/-- `(1+u)^m ≤ 1 + 2 m u` as long as `2 m u ≤ 1`. -/
theorem pow_u_le {u : ℝ} (u0 : 0 ≤ u) (m : ℕ) (hm : 2 * m * u ≤ 1) :
    (1 + u) ^ m ≤ 1 + 2 * m * u := by
  induction m with
  | zero => simp
  | succ m ih =>
    push_cast at hm ⊢
    have h1 : 2 * (m : ℝ) * u ≤ 1 := by linarith
    have h2 := mul_le_mul_of_nonneg_right (ih h1) (show 0 ≤ 1 + u by linarith)
    rw [pow_succ]
    nlinarith [mul_le_mul_of_nonneg_right h1 u0]

theorem bspline_length_numbers (hu : F.u = 2 ^ (-(53 : ℕ) : ℤ))
    (heps : F.epsilon = 2 ^ (1 - (53 : ℕ) : ℤ)) (he60 : F.eta ≤ 1 / 10 ^ 60) (hmx : 10 ^ 60 ≤ F.max)
    {knots : Arr (Fl F) K}
    {ps : Arr (PointN (Fl F) 2) C}
    {b : BSpline (Fl F) (PointN (Fl F) 2) K C D}
    (h : BSpline.new knots ps = .ok b) (hk : FiniteKnots knots) (hf : ClampedFront D knots)
    (hb : ClampedBack D knots)
    (hspan : ∀ i j : Fin K, (knots j).toReal - (knots i).toReal ≤ F.max)
    (hD : D ≤ 8) {M : ℝ} (hM0 : 0 ≤ M) (hM9 : M ≤ 10 ^ 9) (hM : ∀ i, BoundedBy M (ps i)) {k : ℕ}
    (hk6 : k ≤ 10 ^ 6) :
    ∃ (lo hi : Fl F)
      (p q : ℕ → PointN (Fl F) 2) (r : Fl F),
      b.knotDomain = some (lo, hi) ∧
      (∀ i, b.evalOrDefault (sampleParam lo hi i k) = some (p i) ∧ FinitePoint (p i)) ∧
      (∀ i, b.evalOrDefault (sampleParam lo hi i k + lit 1 / Scalar.ofUsize k) = some (q i) ∧
        FinitePoint (q i)) ∧
      b.arclen k = some r ∧ r.IsFinite ∧ 0 ≤ r.toReal ∧
      |r.toReal - ∑ i ∈ Finset.range (k + 1), pdist (p i).real (q i).real|
        ≤ 1 / 10 ^ 9 * (∑ i ∈ Finset.range (k + 1), pdist (p i).real (q i).real)
          + 1 / 10 ^ 19 := by
  have htiny := distTiny_two hu he60
  have ht0 := distTiny_nonneg F 2
  have u0 := F.u_nonneg
  have n0 := F.eta_nonneg
  have hu' : F.u ≤ 1 / (8 * 10 ^ 15) := by rw [hu]; norm_num
  have hkR : (k : ℝ) ≤ 10 ^ 6 := by exact_mod_cast hk6
  have he1 : F.eta ≤ 1 / 1024 := he60.trans (by norm_num)
  have hee : F.eta ≤ F.epsilon * F.u := by
    refine he60.trans ?_
    rw [heps, hu]
    norm_num
  have hDR : (D : ℝ) ≤ 8 := by exact_mod_cast hD
  have gD : ((1 + F.u) ^ 2 * (1 + F.u + F.eta)) ^ D ≤ 2 := by
    have g1 : (1 + F.u) ^ 2 * (1 + F.u + F.eta) ≤ (1 + 1 / 1000) ^ 2 * (1 + 2 / 1000) := by
      refine mul_le_mul (pow_le_pow_left₀ (by linarith) ?_ 2) ?_ (by linarith) (by norm_num)
      · exact add_le_add le_rfl (hu'.trans (by norm_num))
      · have := hu'.trans (show (1 : ℝ) / (8 * 10 ^ 15) ≤ 1 / 1000 by norm_num)
        have := he60.trans (show (1 : ℝ) / 10 ^ 60 ≤ 1 / 1000 by norm_num)
        linarith
    have g2 : 1 ≤ (1 + F.u) ^ 2 * (1 + F.u + F.eta) :=
      one_le_mul_of_one_le_of_one_le (one_le_pow₀ (by linarith)) (by linarith)
    exact (pow_le_pow_right₀ g2 hD).trans
      ((pow_le_pow_left₀ (by positivity) g1 8).trans (by norm_num))
  set B := ((1 + F.u) ^ 2 * (1 + F.u + F.eta)) ^ D * (M + D * (3 * (1 + F.u) * F.eta)) with hB
  have hc : (D : ℝ) * (3 * (1 + F.u) * F.eta) ≤ 1 := by
    have g1 : (1 : ℝ) + F.u ≤ 2 := by
      have := hu'.trans (show (1 : ℝ) / (8 * 10 ^ 15) ≤ 1 by norm_num)
      linarith
    have g2 : (D : ℝ) * (3 * (1 + F.u) * F.eta) ≤ 8 * (3 * 2 * (1 / 10 ^ 60)) := by gcongr
    exact g2.trans (by norm_num)
  have hB0 : 0 ≤ B := by rw [hB]; positivity
  have hB9 : B ≤ 4 * 10 ^ 9 := by
    have : B ≤ 2 * (10 ^ 9 + 1) := by rw [hB]; gcongr
    linarith
  have p3 : (1 + F.u) ^ (2 + 1) ≤ 2 := by rw [hu]; norm_num
  have p2 : (1 + F.u) ^ 2 ≤ 2 := by rw [hu]; norm_num
  have pk : ∀ m : ℕ, m ≤ k + 6 → (1 + F.u) ^ m ≤ 1 + 1 / 10 ^ 9 := by
    intro m hm
    have hmR : (m : ℝ) ≤ 10 ^ 6 + 6 := by
      have : (m : ℝ) ≤ k + 6 := by exact_mod_cast hm
      linarith
    have h1 : 2 * (m : ℝ) * F.u ≤ 2 * (10 ^ 6 + 6) * (1 / (8 * 10 ^ 15)) := by gcongr
    have h2 : 2 * (m : ℝ) * F.u ≤ 1 / 10 ^ 9 := h1.trans (by norm_num)
    have := pow_u_le u0 m (h2.trans (by norm_num))
    linarith
  have ht : distTiny F 2 + F.eta ≤ 2 / 10 ^ 26 := by
    have : (1 : ℝ) / 10 ^ 26 + 1 / 10 ^ 60 ≤ 2 / 10 ^ 26 := by norm_num
    linarith
  have htail : (1 + F.u) ^ (k + 1) * (((k : ℝ) + 1) * (distTiny F 2 + F.eta)) ≤ 1 / 10 ^ 19 := by
    have : (1 + F.u) ^ (k + 1) * (((k : ℝ) + 1) * (distTiny F 2 + F.eta))
        ≤ (1 + 1 / 10 ^ 9) * ((10 ^ 6 + 1) * (2 / 10 ^ 26)) := by
      have := pk (k + 1) (by omega)
      gcongr
    exact this.trans (by norm_num)
  have hBs : (5 / 2 * B + 1) ^ 2 ≤ (5 / 2 * (4 * 10 ^ 9) + 1) ^ 2 := by gcongr
  obtain ⟨lo, hi, p, q, r, c1, c2, c3, c4, c5, c6, c7⟩ := C98_bspline_clamped h hk hf hb hspan
    (hu'.trans (by norm_num)) hee he1 hM0 hM (k := k) hB (by
      have : (5 : ℝ) / 2 * (4 * 10 ^ 9) + 1 ≤ 10 ^ 60 := by norm_num
      linarith) (by
      have a1 : (1 + F.u) ^ (2 + 1) * (((2 : ℕ) : ℝ) * (5 / 2 * B + 1) ^ 2)
          + 2 * ((2 : ℕ) : ℝ) * (1 + F.u) ^ 2 * F.eta
          ≤ 2 * (((2 : ℕ) : ℝ) * (5 / 2 * (4 * 10 ^ 9) + 1) ^ 2)
            + 2 * ((2 : ℕ) : ℝ) * 2 * (1 / 10 ^ 60) := by gcongr
      refine a1.trans (le_trans ?_ hmx)
      norm_num) (by
      have a1 : (1 + F.u) ^ (2 + k + 4) * (((k : ℝ) + 1) * (2 * ((2 : ℕ) : ℝ) * B))
          ≤ (1 + 1 / 10 ^ 9) * ((10 ^ 6 + 1) * (2 * ((2 : ℕ) : ℝ) * (4 * 10 ^ 9))) := by
        have := pk (2 + k + 4) (by omega)
        gcongr
      have a2 : (1 + 1 / 10 ^ 9) * ((10 ^ 6 + 1) * (2 * ((2 : ℕ) : ℝ) * (4 * 10 ^ 9)))
          + 1 / 10 ^ 19 ≤ 10 ^ 60 := by norm_num
      exact (add_le_add a1 htail).trans (a2.trans hmx))
  refine ⟨lo, hi, p, q, r, c1, c2, c3, c4, c5, c6, c7.trans (add_le_add ?_ htail)⟩
  refine mul_le_mul_of_nonneg_right ?_ (Finset.sum_nonneg fun i _ => pdist_nonneg _ _)
  have := pk (2 + k + 4) (by omega)
  linarith

/-- **C98**, `BSpline::arclen` in binary64: on a clamped planar spline of degree at most 8 with
coordinates up to `10⁹` and for up to a million steps, the result differs from the exact sum of the
distances between the points it evaluates by at most a relative `10⁻⁹` and an absolute `10⁻¹⁹`. -/
theorem C98_bspline_binary64 {cosI acosI : ℝ → ℝ} {powI : ℝ → ℝ → ℝ}
    {knots : Arr (Fl (binary64 cosI acosI powI)) K}
    {ps : Arr (PointN (Fl (binary64 cosI acosI powI)) 2) C}
    {b : BSpline (Fl (binary64 cosI acosI powI)) (PointN (Fl (binary64 cosI acosI powI)) 2) K C D}
    (h : BSpline.new knots ps = .ok b) (hk : FiniteKnots knots) (hf : ClampedFront D knots)
    (hb : ClampedBack D knots)
    (hspan : ∀ i j : Fin K, (knots j).toReal - (knots i).toReal ≤ (binary64 cosI acosI powI).max)
    (hD : D ≤ 8) {M : ℝ} (hM0 : 0 ≤ M) (hM9 : M ≤ 10 ^ 9) (hM : ∀ i, BoundedBy M (ps i)) {k : ℕ}
    (hk6 : k ≤ 10 ^ 6) :
    ∃ (lo hi : Fl (binary64 cosI acosI powI))
      (p q : ℕ → PointN (Fl (binary64 cosI acosI powI)) 2) (r : Fl (binary64 cosI acosI powI)),
      b.knotDomain = some (lo, hi) ∧
      (∀ i, b.evalOrDefault (sampleParam lo hi i k) = some (p i) ∧ FinitePoint (p i)) ∧
      (∀ i, b.evalOrDefault (sampleParam lo hi i k + lit 1 / Scalar.ofUsize k) = some (q i) ∧
        FinitePoint (q i)) ∧
      b.arclen k = some r ∧ r.IsFinite ∧ 0 ≤ r.toReal ∧
      |r.toReal - ∑ i ∈ Finset.range (k + 1), pdist (p i).real (q i).real|
        ≤ 1 / 10 ^ 9 * (∑ i ∈ Finset.range (k + 1), pdist (p i).real (q i).real)
          + 1 / 10 ^ 19 :=
  bspline_length_numbers rfl rfl (binary64_eta cosI acosI powI) (binary64_max cosI acosI powI) h hk hf
    hb hspan hD hM0 hM9 hM hk6

/-- The spline of degree 1 with knots 0 0 1 2 2 through (3, 3), (3, 3), (3, 3) meets the hypotheses
of `C98_bspline_binary64`. -/
example (cosI acosI : ℝ → ℝ) (powI : ℝ → ℝ → ℝ) :
    ∃ b : BSpline (Fl (binary64 cosI acosI powI)) (PointN (Fl (binary64 cosI acosI powI)) 2) 5 3 1,
      ∃ r, b.arclen 1000 = some r ∧ r.IsFinite := by
  set F := binary64 cosI acosI powI
  obtain ⟨knots, b, h, hk, hf, hb, hs, -⟩ := clamped_float_witness (F := F)
  obtain ⟨h1, h2, h3, -⟩ := (new_generic _ _ _).1 h
  obtain ⟨hok, e⟩ : ∃ hok, (lit 3 : Fl F) = fin 3 hok := ⟨_, lit_int 3 (by norm_num)⟩
  have h' := (new_generic knots (fun _ : Fin 3 => PointN.new fun _ : Fin 2 => (lit 3 : Fl F)) _).2
    ⟨h1, h2, h3, rfl⟩
  obtain ⟨_, _, _, _, r, -, -, -, hr, hrf, -⟩ := C98_bspline_binary64 h' hk hf hb hs (by norm_num)
    (M := 3) (by norm_num) (by norm_num) (fun i c => by
      show (lit 3 : Fl F).IsFinite ∧ |(lit 3 : Fl F).toReal| ≤ 3
      rw [e, toReal_fin]
      exact ⟨trivial, by norm_num⟩) (k := 1000) (by norm_num)
  exact ⟨_, r, hr, hrf⟩

end Stroke
