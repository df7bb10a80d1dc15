import Verif.Props.FloatDistance
import Verif.Props.ArcLength

set_option linter.unusedSectionVars false

/-!
# Arc length in floating point (C98)
-/

namespace Stroke

open Fl

variable {F : FloatFormat} {n : ℕ}

/-! ### The sample parameters -/

/-- What `arclen(k)` needs from the format: the numbers up to `k` are representable, and the last
sample parameter does not come out above 1.  True of binary64 for `k ≤ 2 ^ 53`
(`binary64_steps`). -/
structure HasSteps (F : FloatFormat) (k : ℕ) : Prop where
  num : ∀ i : ℕ, i ≤ k → (i : ℝ) ∈ F.grid ∧ |(i : ℝ)| ≤ F.max
  last : ∀ i : ℕ, i < k → F.rnd (F.rnd ((i : ℝ) / k) + F.rnd (1 / k)) ≤ 1

/-- The sample parameters: rounded quotients, in [0, 1] and close to the exact ones. -/
theorem step_params {k : ℕ} (hS : HasSteps F k) (hu : F.u ≤ 1 / 1024) (he : F.eta ≤ 1 / 1024)
    {i : ℕ} (hi : i < k) :
    ∃ (a b : ℝ) (ha : a ∈ F.grid ∧ |a| ≤ F.max) (hb : b ∈ F.grid ∧ |b| ≤ F.max),
      (Scalar.ofUsize i * lit 1 / Scalar.ofUsize k : Fl F) = fin a ha ∧
      (Scalar.ofUsize i * lit 1 / Scalar.ofUsize k + lit 1 / Scalar.ofUsize k : Fl F) = fin b hb ∧
      (0 ≤ a ∧ a ≤ 1 ∧ |a - (i : ℝ) / k| ≤ 4 * F.u + 4 * F.eta) ∧
      (0 ≤ b ∧ b ≤ 1 ∧ |b - ((i + 1 : ℕ) : ℝ) / k| ≤ 4 * F.u + 4 * F.eta) := by
  have u0 := F.u_nonneg
  have e0 := F.eta_nonneg
  have k0 : (0 : ℝ) < k := by exact_mod_cast (by omega : 0 < k)
  have k1 : (1 : ℝ) ≤ k := by exact_mod_cast (by omega : 1 ≤ k)
  have i0 : (0 : ℝ) ≤ (i : ℝ) / k := by positivity
  have hik : (i : ℝ) / k + 1 / k ≤ 1 := by
    rw [← add_div, div_le_one k0]
    exact_mod_cast hi
  have s0 : (0 : ℝ) ≤ 1 / k := by positivity
  have m1 : (1 : ℝ) ≤ F.max := by linarith [F.max_ge]
  have eu : ∀ (j : ℕ) (hj : j ≤ k), (Scalar.ofUsize j : Fl F) = fin (j : ℝ) (hS.num j hj) :=
    fun j hj => F.round_of_mem (hS.num j hj)
  have ea : (Scalar.ofUsize i * lit 1 / Scalar.ofUsize k : Fl F)
      = fin (F.rnd ((i : ℝ) / k)) ⟨F.rnd_mem _, F.abs_rnd_le F.max_mem
          (by rw [abs_of_nonneg i0]; linarith)⟩ := by
    rw [mul_litOne (by rw [eu i hi.le]; trivial), eu i hi.le, eu k le_rfl, fin_div k0.ne',
      F.round_of_le (by rw [abs_of_nonneg i0]; linarith)]
  have es : (lit 1 / Scalar.ofUsize k : Fl F)
      = fin (F.rnd (1 / k)) ⟨F.rnd_mem _, F.abs_rnd_le F.max_mem
          (by rw [abs_of_nonneg s0]; linarith)⟩ := by
    rw [lit_one, eu k le_rfl, fin_div k0.ne', F.round_of_le (by rw [abs_of_nonneg s0]; linarith)]
  have a0 := F.rnd_nonneg i0
  have a1 : F.rnd ((i : ℝ) / k) ≤ 1 := by
    have := F.rnd_mono (show (i : ℝ) / k ≤ 1 by linarith)
    rwa [F.rnd_of_mem 1 F.one_mem] at this
  have s0' := F.rnd_nonneg s0
  have b0 := F.rnd_nonneg (add_nonneg a0 s0')
  have b1 := hS.last i hi
  have hbm : |F.rnd (F.rnd ((i : ℝ) / k) + F.rnd (1 / k))| ≤ F.max := by
    rw [abs_of_nonneg b0]; linarith
  have r1 := F.rnd_err ((i : ℝ) / k)
  have r2 := F.rnd_err (1 / (k : ℝ))
  have r3 := F.rnd_err (F.rnd ((i : ℝ) / k) + F.rnd (1 / k))
  rw [abs_of_nonneg i0] at r1
  rw [abs_of_nonneg s0] at r2
  rw [abs_of_nonneg (add_nonneg a0 s0')] at r3
  have p1 : F.u * ((i : ℝ) / k) + F.u * (1 / k) ≤ F.u := by
    have := mul_le_mul_of_nonneg_left hik u0
    linarith
  have p2 : 0 ≤ F.u * ((i : ℝ) / k) := mul_nonneg u0 i0
  have p3 : 0 ≤ F.u * (1 / (k : ℝ)) := mul_nonneg u0 s0
  refine ⟨_, _, _, ⟨F.rnd_mem _, hbm⟩, ea, ?_, ⟨a0, a1, by linarith⟩, b0, b1, ?_⟩
  · rw [ea, es, fin_add, F.round_of_rnd_le hbm]
  · have hsum : F.rnd ((i : ℝ) / k) + F.rnd (1 / k) ≤ 2 := by
      rw [abs_le] at r1 r2
      have : F.u ≤ 1 / 4 := by linarith
      linarith
    have p4 : F.u * (F.rnd ((i : ℝ) / k) + F.rnd (1 / k)) ≤ 2 * F.u := by
      have := mul_le_mul_of_nonneg_left hsum u0
      linarith
    have ek : ((i + 1 : ℕ) : ℝ) / k = (i : ℝ) / k + 1 / k := by push_cast; rw [add_div]
    rw [ek, abs_le]
    rw [abs_le] at r1 r2 r3
    constructor <;> linarith [r1.1, r1.2, r2.1, r2.2, r3.1, r3.2]

/-! ### One chord and the sum -/

/-- What one chord contributes to the error of the sum: `E` bounds the error of a coordinate of a
computed point and `V` the speed of the curve. -/
noncomputable def arcStep (F : FloatFormat) (n k : ℕ) (E V : ℝ) : ℝ :=
  (1 + F.u) ^ (n + 3) * (2 * (Real.sqrt n * E + V * (4 * F.u + 4 * F.eta)))
    + ((1 + F.u) ^ (n + 3) - 1) * (V / k) + distTiny F n + F.u * V + F.eta

theorem distTiny_nonneg (F : FloatFormat) (n : ℕ) : 0 ≤ distTiny F n := by
  have u0 := F.u_nonneg
  have e0 := F.eta_nonneg
  unfold distTiny
  positivity

theorem near_point {p : PointN (Fl F) n} {x : PointN ℝ n} {E : ℝ} (hE : 0 ≤ E)
    (h : ∀ j, |(p.coords j).toReal - x.coords j| ≤ E) : pdist p.real x ≤ Real.sqrt n * E := by
  rw [pdist_vec, ← norm_vec_const E hE]
  exact norm_vec_mono h

/-- Lipschitz continuity without an order on the parameters. -/
theorem lip_abs {c : ℝ → PointN ℝ n} {V : ℝ}
    (hV : ∀ x y : ℝ, 0 ≤ x → x ≤ y → y ≤ 1 → pdist (c x) (c y) ≤ V * (y - x)) {x y : ℝ}
    (hx : 0 ≤ x ∧ x ≤ 1) (hy : 0 ≤ y ∧ y ≤ 1) : pdist (c x) (c y) ≤ V * |x - y| := by
  rcases le_total x y with h | h
  · rw [abs_sub_comm, abs_of_nonneg (by linarith)]
    exact hV x y hx.1 h hy.2
  · rw [abs_of_nonneg (by linarith), pdist_comm]
    exact hV y x hy.1 h hx.2

/-- The error after one more addition, given the error `g * (i * X)` of the sum so far. -/
theorem arc_sum_step {u eta g i X δ V : ℝ} (u0 : 0 ≤ u) (g1 : 1 ≤ g) (X0 : 0 ≤ X)
    (hX : X = δ + u * V + eta) (uV : 0 ≤ u * V) (e0 : 0 ≤ eta) :
    g * (i * X) + δ + (u * V + u * (g * (i * X) + δ) + eta) ≤ g * (1 + u) * ((i + 1) * X) := by
  have t1 : X ≤ g * X := le_mul_of_one_le_left X0 g1
  have t2 : u * δ ≤ u * (g * X) := mul_le_mul_of_nonneg_left (by linarith) u0
  have e : g * (1 + u) * ((i + 1) * X)
      = g * (i * X) + u * (g * (i * X)) + g * X + u * (g * X) := by ring
  rw [e]
  linarith

/-- The error of the sum so far and of the next chord stay below the final bound. -/
theorem arc_sum_le {g g' i k X δ : ℝ} (g1 : 1 ≤ g) (gg : g ≤ g') (X0 : 0 ≤ X) (hδ : δ ≤ X)
    (i0 : 0 ≤ i) (ik : i + 1 ≤ k) : g * (i * X) + δ ≤ g' * (k * X) := by
  have t1 : X ≤ g * X := le_mul_of_one_le_left X0 g1
  have t2 : g * ((i + 1) * X) ≤ g' * (k * X) :=
    mul_le_mul gg (mul_le_mul_of_nonneg_right ik X0) (by positivity) (by linarith)
  have e : g * ((i + 1) * X) = g * (i * X) + g * X := by ring
  linarith

/-- The error of one computed chord. -/
theorem arc_chord_err {G P C W ρ d T : ℝ} (G1 : 1 ≤ G) (hd : |d - P| ≤ (G - 1) * P + T)
    (hP : |P - C| ≤ ρ) (hC : C ≤ W) : |d - C| ≤ G * ρ + (G - 1) * W + T := by
  rw [abs_le] at hP
  have t1 : (G - 1) * P ≤ (G - 1) * (W + ρ) :=
    mul_le_mul_of_nonneg_left (by linarith) (by linarith)
  have e : (G - 1) * (W + ρ) = (G - 1) * W + G * ρ - ρ := by ring
  rw [abs_le] at hd ⊢
  constructor <;> linarith [hd.1, hd.2, hP.1, hP.2]

/-- **C98** for an arbitrary evaluation method `f` with exact counterpart `c`. -/
theorem arclen_float {k : ℕ} (hk : 1 ≤ k) (hS : HasSteps F k) (hu : F.u ≤ 1 / 1024)
    (he : F.eta ≤ 1 / 1024)
    (f : Fl F → PointN (Fl F) n) (c : ℝ → PointN ℝ n) {B E V : ℝ}
    (hB : 0 ≤ B) (hE : 0 ≤ E) (hV0 : 0 ≤ V)
    (hf : ∀ (t : ℝ) (ht : t ∈ F.grid ∧ |t| ≤ F.max), 0 ≤ t → t ≤ 1 → BoundedBy B (f (fin t ht)) ∧
      ∀ j, |((f (fin t ht)).coords j).toReal - (c t).coords j| ≤ E)
    (hV : ∀ x y : ℝ, 0 ≤ x → x ≤ y → y ≤ 1 → pdist (c x) (c y) ≤ V * (y - x))
    (hB1 : 5 / 2 * B + 1 ≤ F.max)
    (hmax : (1 + F.u) ^ (n + 1) * (n * (5 / 2 * B + 1) ^ 2) + 2 * n * (1 + F.u) ^ n * F.eta
      ≤ F.max)
    (hsum : V + (1 + F.u) ^ k * (k * arcStep F n k E V) ≤ F.max) :
    ∃ r, sampledArclen (fun t => some (f t)) k = some r ∧ r.IsFinite ∧
      |r.toReal - polylineLength (fun i : ℕ => c ((i : ℝ) / k)) 1 k|
        ≤ (1 + F.u) ^ k * (k * arcStep F n k E V) := by
  have u0 := F.u_nonneg
  have e0 := F.eta_nonneg
  have k0 : (0 : ℝ) < k := by exact_mod_cast hk
  set X := arcStep F n k E V with hX
  set G := (1 + F.u) ^ (n + 3) with hG
  have hG1 : 1 ≤ G := one_le_g (F := F) (n + 3)
  have hT := distTiny_nonneg F n
  set τ := 4 * F.u + 4 * F.eta with hτ
  have τ0 : 0 ≤ τ := by positivity
  set ρ := 2 * (Real.sqrt n * E + V * τ) with hρ
  have ρ0 : 0 ≤ ρ := by positivity
  set δ := G * ρ + (G - 1) * (V / k) + distTiny F n with hδ
  have δ0 : 0 ≤ δ := by
    have : 0 ≤ (G - 1) * (V / k) := mul_nonneg (by linarith) (by positivity)
    have : 0 ≤ G * ρ := mul_nonneg (by linarith) ρ0
    linarith
  have hXδ : X = δ + F.u * V + F.eta := rfl
  have uV : 0 ≤ F.u * V := mul_nonneg u0 hV0
  have X0 : 0 ≤ X := by linarith
  set g : ℕ → PointN ℝ n := fun i : ℕ => c ((i : ℝ) / k) with hg
  have unit : ∀ i : ℕ, i ≤ k → 0 ≤ (i : ℝ) / k ∧ (i : ℝ) / k ≤ 1 := by
    intro i hi
    refine ⟨by positivity, ?_⟩
    rw [div_le_one k0]
    exact_mod_cast hi
  have hchord : ∀ i : ℕ, i < k → pdist (g i) (g (i + 1)) ≤ V / k := by
    intro i hi
    have := lip_abs hV (unit i hi.le) (unit (i + 1) hi)
    have e : |(i : ℝ) / k - ((i + 1 : ℕ) : ℝ) / k| = 1 / k := by
      push_cast
      rw [add_div, show (i : ℝ) / k - ((i : ℝ) / k + 1 / k) = -(1 / k) by ring, abs_neg,
        abs_of_nonneg (by positivity)]
    rw [e] at this
    calc pdist (g i) (g (i + 1)) ≤ V * (1 / k) := this
      _ = V / k := by ring
  have hpoly : ∀ i : ℕ, 1 ≤ i → i ≤ k → polylineLength g 1 i ≤ V := by
    intro i hi1 hi
    have h1 : polylineLength g 1 i ≤ ∑ _j ∈ Finset.Ico 1 i, V / k := by
      apply Finset.sum_le_sum
      intro j hj
      exact hchord j (lt_of_lt_of_le (Finset.mem_Ico.1 hj).2 hi)
    rw [Finset.sum_const, Nat.card_Ico, nsmul_eq_mul] at h1
    refine h1.trans ?_
    have h2 : ((i - 1 : ℕ) : ℝ) ≤ k := by exact_mod_cast (by omega : i - 1 ≤ k)
    calc ((i - 1 : ℕ) : ℝ) * (V / k) ≤ k * (V / k) := mul_le_mul_of_nonneg_right h2 (by positivity)
      _ = V := by field_simp
  unfold sampledArclen
  simp only []
  obtain ⟨r, hr, hrf, _, hre⟩ := forRange_inv (m := Option)
    (fun i (s : Fl F) => s.IsFinite ∧ 0 ≤ s.toReal ∧
      |s.toReal - polylineLength g 1 i| ≤ (1 + F.u) ^ i * (i * X))
    (lo := 1) (hi := k) (s := (lit 0 : Fl F))
    (body := fun i (arclen : Fl F) => do
      let t := Scalar.ofUsize i * lit 1 / Scalar.ofUsize k
      let p1 ← (fun t => some (f t)) t
      let p2 ← (fun t => some (f t)) (t + lit 1 / Scalar.ofUsize k)
      pure (arclen + Scalar.sqrt (Point.squaredLength (p1 - p2))))
    hk (by
      rw [lit_zero]
      refine ⟨trivial, le_rfl, ?_⟩
      simp only [polylineLength, toReal_fin, Finset.Ico_self, Finset.sum_empty, sub_zero, abs_zero]
      have := one_le_g (F := F) 1
      positivity) (by
      rintro i s hi1 hik ⟨sf, s0, hs⟩
      obtain ⟨a, b, ha, hb, ea, eb, ⟨a0, a1, haerr⟩, b0, b1, hberr⟩ := step_params hS hu he hik
      obtain ⟨bpa, hpa⟩ := hf a ha a0 a1
      obtain ⟨bpb, hpb⟩ := hf b hb b0 b1
      have hsq := sq_finite_of_bounded hu he bpa bpb hB hB1 hmax
      obtain ⟨_, df, d0, hd⟩ := C88_point_distance _ _ hsq
      obtain ⟨sv, hsv, rfl⟩ := isFinite_iff.1 sf
      obtain ⟨d, hdv, ed⟩ := isFinite_iff.1 df
      rw [ed, toReal_fin] at d0 hd
      rw [toReal_fin] at s0 hs
      refine ⟨fin sv hsv + fin d hdv, ?_, ?_⟩
      · simp only [ea, ← ed]
        rw [← ea, eb]
        rfl
      -- the chord
      have q1 : pdist (f (fin a ha)).real (g i) ≤ ρ / 2 := by
        have t1 := near_point hE hpa
        have t2 := lip_abs hV ⟨a0, a1⟩ (unit i hik.le)
        have t3 := pdist_triangle (f (fin a ha)).real (c a) (g i)
        have t4 : V * |a - (i : ℝ) / k| ≤ V * τ := mul_le_mul_of_nonneg_left haerr hV0
        have t5 : pdist (c a) (g i) ≤ V * |a - (i : ℝ) / k| := t2
        rw [hρ]; linarith
      have q2 : pdist (f (fin b hb)).real (g (i + 1)) ≤ ρ / 2 := by
        have t1 := near_point hE hpb
        have t2 := lip_abs hV ⟨b0, b1⟩ (unit (i + 1) hik)
        have t3 := pdist_triangle (f (fin b hb)).real (c b) (g (i + 1))
        have t4 : V * |b - ((i + 1 : ℕ) : ℝ) / k| ≤ V * τ := mul_le_mul_of_nonneg_left hberr hV0
        have t5 : pdist (c b) (g (i + 1)) ≤ V * |b - ((i + 1 : ℕ) : ℝ) / k| := t2
        rw [hρ]; linarith
      have q3 : |pdist (f (fin a ha)).real (f (fin b hb)).real - pdist (g i) (g (i + 1))| ≤ ρ := by
        have t1 := pdist_triangle (f (fin a ha)).real (g i) (f (fin b hb)).real
        have t2 := pdist_triangle (g i) (g (i + 1)) (f (fin b hb)).real
        have t3 := pdist_triangle (g i) (f (fin a ha)).real (g (i + 1))
        have t4 := pdist_triangle (f (fin a ha)).real (f (fin b hb)).real (g (i + 1))
        rw [pdist_comm (g (i + 1)) (f (fin b hb)).real] at t2
        rw [pdist_comm (g i) (f (fin a ha)).real] at t3
        rw [abs_le]
        constructor <;> linarith
      have hci := hchord i hik
      have c0 := pdist_nonneg (g i) (g (i + 1))
      have q4 : |d - pdist (g i) (g (i + 1))| ≤ δ := arc_chord_err hG1 hd q3 hci
      -- the sum
      have epoly : polylineLength g 1 (i + 1) = polylineLength g 1 i + pdist (g i) (g (i + 1)) := by
        unfold polylineLength
        rw [Finset.sum_Ico_succ_top hi1]
      have hpi := hpoly (i + 1) (by omega) hik
      have hexact : |sv + d - polylineLength g 1 (i + 1)| ≤ (1 + F.u) ^ i * (i * X) + δ := by
        rw [epoly]
        rw [abs_le] at hs q4 ⊢
        constructor <;> linarith [hs.1, hs.2, q4.1, q4.2]
      have gi1 := one_le_g (F := F) i
      have gik : (1 + F.u) ^ i ≤ (1 + F.u) ^ k := pow_le_pow_right₀ (by linarith) hik.le
      have hbound : (1 + F.u) ^ i * (i * X) + δ ≤ (1 + F.u) ^ k * (k * X) :=
        arc_sum_le gi1 gik X0 (by linarith) (Nat.cast_nonneg i) (by exact_mod_cast hik)
      have hsd : |sv + d| ≤ F.max := by
        rw [abs_of_nonneg (by linarith)]
        rw [abs_le] at hexact
        linarith [hexact.2]
      rw [fin_add, F.round_of_le hsd]
      refine ⟨trivial, F.rnd_nonneg (by linarith), ?_⟩
      rw [toReal_fin]
      have hr := F.rnd_err (sv + d)
      rw [abs_of_nonneg (show 0 ≤ sv + d by linarith)] at hr
      have hle : sv + d ≤ V + ((1 + F.u) ^ i * (i * X) + δ) := by
        rw [abs_le] at hexact
        linarith [hexact.2]
      have hul : F.u * (sv + d) ≤ F.u * V + F.u * ((1 + F.u) ^ i * (i * X) + δ) := by
        have := mul_le_mul_of_nonneg_left hle u0
        linarith
      have hfin := arc_sum_step (i := (i : ℝ)) u0 gi1 X0 hXδ uV e0
      rw [pow_succ, Nat.cast_succ]
      rw [abs_le] at hexact hr ⊢
      constructor <;> linarith [hexact.1, hexact.2, hr.1, hr.2])
  exact ⟨r, hr, hrf, hre⟩

/-! ### The three curve types -/

/-- **C98**, `QuadraticBezier::arclen`: the computed sum is finite and close to what `arclen`
returns in exact arithmetic for the same control points. -/
theorem C98_quadratic {k : ℕ} (hk : 1 ≤ k) (hS : HasSteps F k) (hu : F.u ≤ 1 / 1024)
    (he : F.eta ≤ 1 / 1024) (q : QuadraticBezier (PointN (Fl F) n)) {M D : ℝ} (hM : 0 ≤ M)
    (hs : BoundedBy M q.start) (hc : BoundedBy M q.ctrl) (hd : BoundedBy M q.end_)
    (h1 : pdist q.start.real q.ctrl.real ≤ D) (h2 : pdist q.ctrl.real q.end_.real ≤ D)
    (hmax : 5 * M + 4 ≤ F.max)
    (hmax' : (1 + F.u) ^ (n + 1) * (n * (5 * M + 4) ^ 2) + 2 * n * (1 + F.u) ^ n * F.eta
      ≤ F.max)
    (hsum : 2 * D + (1 + F.u) ^ k * (k * arcStep F n k (13 * F.u * M + 9 * F.eta) (2 * D))
      ≤ F.max) :
    ∃ r L, q.arclen k = some r ∧ q.real.arclen k = some L ∧ r.IsFinite ∧
      |r.toReal - L| ≤ (1 + F.u) ^ k * (k * arcStep F n k (13 * F.u * M + 9 * F.eta) (2 * D)) := by
  have u0 := F.u_nonneg
  have e0 := F.eta_nonneg
  have hD : 0 ≤ D := (pdist_nonneg _ _).trans h1
  have uM : F.u * M ≤ 1 / 1024 * M := mul_le_mul_of_nonneg_right hu hM
  refine (arclen_float hk hS hu he (fun t => q.evalCasteljau t)
    (fun t => q.real.eval t) (B := 2 * M + 1) (E := 13 * F.u * M + 9 * F.eta) (V := 2 * D)
    (by linarith) (by positivity) (by linarith) (fun t ht t0 t1 => ?_) (fun x y hx hxy hy => ?_)
    (by linarith) (le_trans ?_ hmax') hsum).elim
    fun r h => ⟨r, _, h.1, C15_actual q.real k, h.2⟩
  · have key := fun j => C67_quadratic_casteljau q ht t0 t1 hu he hs hc hd (by linarith) j
    refine ⟨fun j => ⟨(key j).1, ?_⟩, fun j => ?_⟩
    · refine (bounded_of_error (key j).2 (M := M) ?_).trans (by linarith)
      have := abs_lerp_le t0 t1 (abs_lerp_le t0 t1 (hs j).2 (hc j).2)
        (abs_lerp_le t0 t1 (hc j).2 (hd j).2)
      convert this using 2
      ring
    · rw [quadratic_real_eval]
      exact (key j).2
  · exact (C73_specialised ⟨q.real.start, q.real.start⟩ q.real
      ⟨q.real.start, q.real.start, q.real.start, q.real.start⟩ x y hx hxy hy).2.1 D h1 h2
  · have : (5 / 2 * (2 * M + 1) + 1) ^ 2 ≤ (5 * M + 4) ^ 2 :=
      pow_le_pow_left₀ (by positivity) (by linarith) 2
    gcongr

/-- **C98**, `CubicBezier::arclen`. -/
theorem C98_cubic {k : ℕ} (hk : 1 ≤ k) (hS : HasSteps F k) (hu : F.u ≤ 1 / 1024)
    (he : F.eta ≤ 1 / 1024) (c : CubicBezier (PointN (Fl F) n)) {M D : ℝ} (hM : 0 ≤ M)
    (hs : BoundedBy M c.start) (hc : BoundedBy M c.ctrl1) (hc' : BoundedBy M c.ctrl2)
    (hd : BoundedBy M c.end_)
    (h1 : pdist c.start.real c.ctrl1.real ≤ D) (h2 : pdist c.ctrl1.real c.ctrl2.real ≤ D)
    (h3 : pdist c.ctrl2.real c.end_.real ≤ D)
    (hmax : 5 * M + 4 ≤ F.max)
    (hmax' : (1 + F.u) ^ (n + 1) * (n * (5 * M + 4) ^ 2) + 2 * n * (1 + F.u) ^ n * F.eta
      ≤ F.max)
    (hsum : 3 * D + (1 + F.u) ^ k * (k * arcStep F n k (20 * F.u * M + 14 * F.eta) (3 * D))
      ≤ F.max) :
    ∃ r L, c.arclen k = some r ∧ c.real.arclen k = some L ∧ r.IsFinite ∧
      |r.toReal - L| ≤ (1 + F.u) ^ k * (k * arcStep F n k (20 * F.u * M + 14 * F.eta) (3 * D)) := by
  have u0 := F.u_nonneg
  have e0 := F.eta_nonneg
  have hD : 0 ≤ D := (pdist_nonneg _ _).trans h1
  have uM : F.u * M ≤ 1 / 1024 * M := mul_le_mul_of_nonneg_right hu hM
  refine (arclen_float hk hS hu he (fun t => c.evalCasteljau t)
    (fun t => c.real.eval t) (B := 2 * M + 1) (E := 20 * F.u * M + 14 * F.eta) (V := 3 * D)
    (by linarith) (by positivity) (by linarith) (fun t ht t0 t1 => ?_) (fun x y hx hxy hy => ?_)
    (by linarith) (le_trans ?_ hmax') hsum).elim
    fun r h => ⟨r, _, h.1, C26_actual c.real k, h.2⟩
  · have key := fun j => C67_cubic_casteljau c ht t0 t1 hu he hs hc hc' hd (by linarith) j
    refine ⟨fun j => ⟨(key j).1, ?_⟩, fun j => ?_⟩
    · refine (bounded_of_error (key j).2 (M := M) ?_).trans (by linarith)
      have m1 := abs_lerp_le t0 t1 (hs j).2 (hc j).2
      have m2 := abs_lerp_le t0 t1 (hc j).2 (hc' j).2
      have m3 := abs_lerp_le t0 t1 (hc' j).2 (hd j).2
      have := abs_lerp_le t0 t1 (abs_lerp_le t0 t1 m1 m2) (abs_lerp_le t0 t1 m2 m3)
      convert this using 2
      ring
    · rw [cubic_real_eval]
      exact (key j).2
  · exact (C73_specialised ⟨c.real.start, c.real.start⟩
      ⟨c.real.start, c.real.start, c.real.start⟩ c.real x y hx hxy hy).2.2 D h1 h2 h3
  · have : (5 / 2 * (2 * M + 1) + 1) ^ 2 ≤ (5 * M + 4) ^ 2 :=
      pow_le_pow_left₀ (by positivity) (by linarith) 2
    gcongr

/-- **C98**, `Bezier::arclen`, any number of control points; `E` is the error bound of `eval`
(C62). -/
theorem C98_bezier {N k : ℕ} (hN : 1 ≤ N) (hk : 1 ≤ k) (hS : HasSteps F k) (hu : F.u ≤ 1 / 1024)
    (he : F.eta ≤ 1 / 1024) (b : Bezier (PointN (Fl F) n) N) {M D E : ℝ} (hM : 0 ≤ M) (hD0 : 0 ≤ D)
    (hb : ∀ k, BoundedBy M (b.control_points k))
    (hD : ∀ k (hk : k + 1 < N), pdist (b.control_points ⟨k, by omega⟩).real
      (b.control_points ⟨k + 1, hk⟩).real ≤ D)
    (hE : E = ((1 + F.u) ^ 2 * (1 + F.u + F.eta)) ^ (N - 1)
      * (M + (N - 1 : ℕ) * (3 * (1 + F.u) * F.eta)) - M)
    (hmax : 5 / 2 * (M + E) + 1 ≤ F.max)
    (hmax' : (1 + F.u) ^ (n + 1) * (n * (5 / 2 * (M + E) + 1) ^ 2)
      + 2 * n * (1 + F.u) ^ n * F.eta ≤ F.max)
    (hsum : (N - 1 : ℕ) * D + (1 + F.u) ^ k * (k * arcStep F n k E ((N - 1 : ℕ) * D)) ≤ F.max) :
    ∃ r L, b.arclen k = some r ∧ b.real.arclen k = some L ∧ r.IsFinite ∧
      |r.toReal - L| ≤ (1 + F.u) ^ k * (k * arcStep F n k E ((N - 1 : ℕ) * D)) := by
  have u0 := F.u_nonneg
  have e0 := F.eta_nonneg
  have hbound : casBound F M 0 ≤ casBound F M (N - 1) := casBound_mono hM (Nat.zero_le _)
  have hE0 : 0 ≤ E := by
    have h0 : casBound F M 0 = M := by simp [casBound]
    have h1 : E = casBound F M (N - 1) - M := hE
    linarith
  have hev : b.eval = fun t => some (cas (extend b.control_points) t (N - 1) 0) :=
    funext fun t => bezier_eval_cas b hN t
  have hevR : b.real.eval = fun t => some (cas (extend b.real.control_points) t (N - 1) 0) :=
    funext fun t => bezier_eval_cas b.real hN t
  refine (arclen_float hk hS hu he
    (fun t => cas (extend b.control_points) t (N - 1) 0)
    (fun t => cas (extend b.real.control_points) t (N - 1) 0)
    (B := M + E) (E := E) (V := (N - 1 : ℕ) * D)
    (by linarith) hE0 (by positivity) (fun t ht t0 t1 => ?_) (fun x y hx hxy hy => ?_)
    hmax hmax' hsum).elim
    fun r h => ⟨r, _, by rw [bezier_arclen_eq, hev]; exact h.1,
      by rw [bezier_arclen_eq, hevR]; exact sampledArclen_eq _ k, h.2⟩
  · obtain ⟨q, hq, key⟩ := C62_bezier_error hN b ht t0 t1 (fun k j => (hb k j).1)
      (fun k j => (hb k j).2) hM (by linarith)
    rw [hev] at hq
    have hq' := Option.some.inj hq
    simp only [hq']
    obtain ⟨w, hw, hw1, hw2, hco⟩ := C36_bezier b.real hN t t0 t1
    rw [hevR] at hw
    have hw' := Option.some.inj hw
    simp only [hw']
    have hcoord : ∀ j : Fin n, w.coords j = ∑ k : Fin N, bernstein (N - 1) k t
        * ((b.control_points k).coords j).toReal := by
      intro j
      have := hco j
      rw [show coord w j = w.coords j from coord_pn n w.coords j] at this
      rw [this]
      apply Finset.sum_congr rfl
      intro k _
      rw [show coord (b.real.controlPoints k) j = ((b.control_points k).coords j).toReal from
        coord_pn n (b.real.controlPoints k).coords j]
    refine ⟨fun j => ⟨(key j).1, bounded_of_error (by rw [hE]; exact (key j).2) ?_⟩, fun j => ?_⟩
    · calc |∑ k : Fin N, bernstein (N - 1) k t * ((b.control_points k).coords j).toReal|
          ≤ ∑ k : Fin N, |bernstein (N - 1) k t * ((b.control_points k).coords j).toReal| :=
            Finset.abs_sum_le_sum_abs _ _
        _ ≤ ∑ k : Fin N, bernstein (N - 1) k t * M := by
            apply Finset.sum_le_sum
            intro k _
            rw [abs_mul, abs_of_nonneg (hw1 k)]
            exact mul_le_mul_of_nonneg_left (hb k j).2 (hw1 k)
        _ = M := by rw [← Finset.sum_mul, hw2, one_mul]
    · rw [hcoord, hE]
      exact (key j).2
  · obtain ⟨v, w, hv, hw, h⟩ := C73_bezier b.real hN D hD x y hx hxy hy
    rw [hevR] at hv hw
    cases hv
    cases hw
    exact h

/-! ### The IEEE formats -/

/-- Rounding a number that is not subnormal has a purely relative error. -/
theorem ieeeRnd_rel {p : ℕ} {emin : ℤ} {x : ℝ} (hx : 2 ^ (emin + p - 1) ≤ |x|) :
    |ieeeRnd p emin x - x| ≤ 2 ^ (-(p : ℤ)) * |x| := by
  have hx0 : 0 < |x| := lt_of_lt_of_le (by positivity) hx
  have hlog : emin + p - 1 ≤ Int.log 2 |x| :=
    (Int.zpow_le_iff_le_log (b := 2) (by norm_num) hx0).1 (by exact_mod_cast hx)
  have h2 : (0 : ℝ) < 2 ^ ulpExp p emin x := by positivity
  have h1 : |ieeeRnd p emin x - x| ≤ 1 / 2 * 2 ^ ulpExp p emin x := by
    have e : ieeeRnd p emin x - x
        = -(x / 2 ^ ulpExp p emin x - roundEven (x / 2 ^ ulpExp p emin x))
          * 2 ^ ulpExp p emin x := by
      unfold ieeeRnd
      field_simp
      ring
    rw [e, abs_mul, abs_neg, abs_of_pos h2]
    exact mul_le_mul_of_nonneg_right (roundEven_err _) h2.le
  refine h1.trans ?_
  have hu : ulpExp p emin x = Int.log 2 |x| - ((p : ℤ) - 1) := max_eq_left (by omega)
  have h3 : (2 : ℝ) ^ Int.log 2 |x| ≤ |x| := by
    have := Int.zpow_log_le_self (b := 2) (by norm_num) hx0
    exact_mod_cast this
  have e4 : (1 / 2 : ℝ) * 2 ^ ulpExp p emin x = 2 ^ (-(p : ℤ)) * 2 ^ Int.log 2 |x| := by
    rw [hu, show (1 / 2 : ℝ) = 2 ^ (-1 : ℤ) by norm_num, ← zpow_add₀ (by norm_num),
      ← zpow_add₀ (by norm_num)]
    congr 1
    ring
  rw [e4]
  exact mul_le_mul_of_nonneg_left h3 (by positivity)

/-- Half a unit above 1 is a tie and goes to 1. -/
theorem ieeeRnd_tie {p : ℕ} {emin : ℤ} (hp : 2 ≤ p) (he : emin ≤ 1 - p) :
    ieeeRnd p emin (1 + 2 ^ (-(p : ℤ))) = 1 := by
  have hpos : (0 : ℝ) < 2 ^ (-(p : ℤ)) := by positivity
  have hlt : (2 : ℝ) ^ (-(p : ℤ)) < 1 := zpow_lt_one_of_neg₀ (by norm_num) (by omega)
  have hlog : Int.log 2 |(1 : ℝ) + 2 ^ (-(p : ℤ))| = 0 := by
    rw [abs_of_pos (by linarith)]
    apply le_antisymm
    · have := (Int.lt_zpow_iff_log_lt (b := 2) (by norm_num)
        (show (0 : ℝ) < 1 + 2 ^ (-(p : ℤ)) by linarith) (x := 1)).1 (by
          rw [zpow_one]; push_cast; linarith)
      omega
    · exact (Int.zpow_le_iff_le_log (b := 2) (by norm_num)
        (show (0 : ℝ) < 1 + 2 ^ (-(p : ℤ)) by linarith)).1 (by norm_num)
  have hulp : ulpExp p emin (1 + 2 ^ (-(p : ℤ))) = 1 - p := by
    unfold ulpExp
    rw [hlog, max_eq_left (by omega)]
    ring
  obtain ⟨q, rfl⟩ : ∃ q, p = q + 2 := ⟨p - 2, by omega⟩
  have e1 : ((1 : ℝ) + 2 ^ (-((q + 2 : ℕ) : ℤ))) / 2 ^ (1 - ((q + 2 : ℕ) : ℤ))
      = ((2 ^ (q + 1) : ℤ) : ℝ) + 1 / 2 := by
    rw [div_eq_mul_inv, ← zpow_neg, add_mul, ← zpow_add₀ (by norm_num), one_mul,
      show -(1 - ((q + 2 : ℕ) : ℤ)) = ((q + 1 : ℕ) : ℤ) by push_cast; ring,
      show -((q + 2 : ℕ) : ℤ) + ((q + 1 : ℕ) : ℤ) = -1 by push_cast; ring, zpow_natCast]
    push_cast
    norm_num
  have e2 : roundEven (((2 ^ (q + 1) : ℤ) : ℝ) + 1 / 2) = 2 ^ (q + 1) := by
    refine roundEven_unique (roundEven_spec _) (Or.inr ⟨?_, ?_⟩)
    · rw [add_sub_cancel_left]; norm_num
    · exact Even.pow_of_ne_zero even_two (by omega)
  unfold ieeeRnd
  rw [hulp, e1, e2]
  push_cast
  rw [← zpow_natCast, ← zpow_add₀ (by norm_num)]
  push_cast
  rw [show (q : ℤ) + 1 + (1 - (q + 2)) = 0 by ring, zpow_zero]

/-- Every IEEE format with enough exponents has the sample parameters of `arclen(k)`, for `k` up
to the largest consecutive integer. -/
theorem ieee_steps {p : ℕ} {emin : ℤ} {emax : ℕ} (hp : 11 ≤ p) (he : emin ≤ 1 - p)
    (he' : emin ≤ 1 - 2 * p) (hm : 1 ≤ emax) (cosI acosI : ℝ → ℝ) (powI : ℝ → ℝ → ℝ) {k : ℕ}
    (hk : k ≤ 2 ^ p) : HasSteps (ieee p emin emax hp he cosI acosI powI) k where
  num i hi := by
    have hi' : (i : ℝ) ≤ 2 ^ p := by exact_mod_cast hi.trans hk
    refine ⟨⟨i, 0, ?_, by omega, by simp⟩, ?_⟩
    · rw [Nat.abs_cast]
      exact_mod_cast hi.trans hk
    · rw [Nat.abs_cast]
      show (i : ℝ) ≤ (2 ^ p - 1) * 2 ^ emax
      have h1 : (2 : ℝ) ≤ 2 ^ emax := by
        calc (2 : ℝ) = 2 ^ 1 := by norm_num
          _ ≤ 2 ^ emax := pow_le_pow_right₀ (by norm_num) hm
      have h2 : (2 : ℝ) ≤ 2 ^ p := by
        calc (2 : ℝ) = 2 ^ 1 := by norm_num
          _ ≤ 2 ^ p := pow_le_pow_right₀ (by norm_num) (by omega)
      nlinarith
  last i hi := by
    show ieeeRnd p emin (ieeeRnd p emin ((i : ℝ) / k) + ieeeRnd p emin (1 / k)) ≤ 1
    have k0 : (0 : ℝ) < k := by exact_mod_cast (by omega : 0 < k)
    have hk' : (k : ℝ) ≤ 2 ^ p := by exact_mod_cast hk
    have u0 : (0 : ℝ) < 2 ^ (-(p : ℤ)) := by positivity
    have rel : ∀ j : ℕ, ieeeRnd p emin ((j : ℝ) / k)
        ≤ (j : ℝ) / k + 2 ^ (-(p : ℤ)) * ((j : ℝ) / k) := by
      intro j
      rcases Nat.eq_zero_or_pos j with rfl | hj
      · simp [ieeeRnd_zero]
      have j0 : 0 < (j : ℝ) / k := div_pos (by exact_mod_cast hj) k0
      have hge : (2 : ℝ) ^ (emin + p - 1) ≤ |(j : ℝ) / k| := by
        rw [abs_of_pos j0]
        calc (2 : ℝ) ^ (emin + p - 1) ≤ 2 ^ (-(p : ℤ)) :=
              zpow_le_zpow_right₀ (by norm_num) (by omega)
          _ = 1 / 2 ^ p := by rw [zpow_neg, zpow_natCast, one_div]
          _ ≤ 1 / k := one_div_le_one_div_of_le k0 hk'
          _ ≤ (j : ℝ) / k := div_le_div_of_nonneg_right (by exact_mod_cast hj) k0.le
      have := ieeeRnd_rel hge
      rw [abs_of_pos j0, abs_le] at this
      linarith [this.2]
    have h1 := rel i
    have h2 := rel 1
    rw [Nat.cast_one] at h2
    have h3 : (i : ℝ) / k + 1 / k ≤ 1 := by
      rw [← add_div, div_le_one k0]
      exact_mod_cast hi
    have h4 := mul_le_mul_of_nonneg_left h3 u0.le
    calc ieeeRnd p emin (ieeeRnd p emin ((i : ℝ) / k) + ieeeRnd p emin (1 / k))
        ≤ ieeeRnd p emin (1 + 2 ^ (-(p : ℤ))) := ieeeRnd_mono (by omega) (by linarith)
      _ = 1 := ieeeRnd_tie (by omega) he

/-- Powers of `1 + u` with a moderate exponent are close to 1. -/
theorem g_pow_small {u : ℝ} (u0 : 0 ≤ u) (u1 : u ≤ 1) {k : ℕ} (hk : k * u ≤ 1 / 100) :
    (1 + u) ^ k ≤ 100 / 99 := by
  have h1 : 1 + (k : ℝ) * (-u) ≤ (1 + -u) ^ k := one_add_mul_le_pow (by linarith) k
  have h2 : (1 + u) ^ k * (1 + -u) ^ k ≤ 1 := by
    rw [← mul_pow]
    exact pow_le_one₀ (by nlinarith) (by nlinarith)
  have h3 : (0 : ℝ) ≤ (1 + u) ^ k := by positivity
  have h4 : (1 + u) ^ k * (99 / 100) ≤ (1 + u) ^ k * (1 + -u) ^ k :=
    mul_le_mul_of_nonneg_left (by linarith) h3
  linarith

theorem distTiny_two {F : FloatFormat} (hu : F.u = 2 ^ (-(53 : ℕ) : ℤ))
    (heta : F.eta ≤ 1 / 10 ^ 60) : distTiny F 2 ≤ 1 / 10 ^ 26 := by
  have e0 := F.eta_nonneg
  have u0 := F.u_nonneg
  have g4 : (1 + F.u) ^ (2 + 2) ≤ 2 := by rw [hu]; norm_num
  have g2 : (1 + F.u) ^ 2 ≤ 2 := by rw [hu]; norm_num
  have g1 : 1 + F.u ≤ 2 := by rw [hu]; norm_num
  have hsq2 : Real.sqrt ((2 : ℕ) : ℝ) ≤ 3 / 2 := by
    apply Real.sqrt_le_iff.2; norm_num
  unfold distTiny
  have a1 : (1 + F.u) ^ (2 + 2) * (Real.sqrt ((2 : ℕ) : ℝ) * F.eta)
      ≤ 2 * (3 / 2 * (1 / 10 ^ 60)) :=
    mul_le_mul g4 (mul_le_mul hsq2 heta e0 (by norm_num)) (by positivity) (by norm_num)
  have a2 : Real.sqrt (2 * ((2 : ℕ) : ℝ) * (1 + F.u) ^ 2 * F.eta) ≤ 1 / 10 ^ 28 := by
    apply Real.sqrt_le_iff.2
    refine ⟨by positivity, ?_⟩
    have : 2 * ((2 : ℕ) : ℝ) * (1 + F.u) ^ 2 * F.eta ≤ 8 * (1 / 10 ^ 60) := by
      apply mul_le_mul _ heta e0 (by norm_num)
      push_cast
      linarith
    exact this.trans (by norm_num)
  have a3 : (1 + F.u) * Real.sqrt (2 * ((2 : ℕ) : ℝ) * (1 + F.u) ^ 2 * F.eta)
      ≤ 2 * (1 / 10 ^ 28) := mul_le_mul g1 a2 (Real.sqrt_nonneg _) (by norm_num)
  have : (2 : ℝ) * (3 / 2 * (1 / 10 ^ 60)) + 2 * (1 / 10 ^ 28) + 1 / 10 ^ 60
      ≤ 1 / 10 ^ 26 := by norm_num
  linarith

/-- The error of one chord of a plane `f64` cubic. -/
theorem arcStep_numbers {F : FloatFormat} (hu : F.u = 2 ^ (-(53 : ℕ) : ℤ))
    (heta : F.eta ≤ 1 / 10 ^ 60) {k : ℕ} (hk : 1 ≤ k) {M D : ℝ} (hM : 0 ≤ M) (hD : 0 ≤ D) :
    arcStep F 2 k (20 * F.u * M + 14 * F.eta) (3 * D)
      ≤ 8 / 10 ^ 15 * M + 8 / 10 ^ 15 * D + 2 / 10 ^ 26 := by
  have e0 := F.eta_nonneg
  have u0 := F.u_nonneg
  have k1 : (1 : ℝ) ≤ k := by exact_mod_cast hk
  have hT := distTiny_two hu heta
  have g5 : (1 + F.u) ^ (2 + 3) ≤ 1 + 6 / 10 ^ 16 := by rw [hu]; norm_num
  have g5' := one_le_g (F := F) (2 + 3)
  have hu' : F.u ≤ 112 / 10 ^ 18 := by rw [hu]; norm_num
  have hsq2 : Real.sqrt ((2 : ℕ) : ℝ) ≤ 3 / 2 := by
    apply Real.sqrt_le_iff.2; norm_num
  have uM : F.u * M ≤ 112 / 10 ^ 18 * M := mul_le_mul_of_nonneg_right hu' hM
  have uD : F.u * D ≤ 112 / 10 ^ 18 * D := mul_le_mul_of_nonneg_right hu' hD
  have eD : F.eta * D ≤ 1 / 10 ^ 60 * D := mul_le_mul_of_nonneg_right heta hD
  have a1 : Real.sqrt ((2 : ℕ) : ℝ) * (20 * F.u * M + 14 * F.eta)
      ≤ 3 / 2 * (20 * F.u * M + 14 * F.eta) := mul_le_mul_of_nonneg_right hsq2 (by positivity)
  have a2 : (1 + F.u) ^ (2 + 3)
      * (2 * (Real.sqrt ((2 : ℕ) : ℝ) * (20 * F.u * M + 14 * F.eta)
        + 3 * D * (4 * F.u + 4 * F.eta)))
      ≤ (1 + 6 / 10 ^ 16) * (2 * (3 / 2 * (20 * (112 / 10 ^ 18 * M) + 14 * (1 / 10 ^ 60))
        + 3 * (4 * (112 / 10 ^ 18 * D) + 4 * (1 / 10 ^ 60 * D)))) := by
    apply mul_le_mul g5 _ (by positivity) (by norm_num)
    linarith
  have a3 : ((1 + F.u) ^ (2 + 3) - 1) * (3 * D / k) ≤ 6 / 10 ^ 16 * (3 * D) := by
    apply mul_le_mul (by linarith) _ (by positivity) (by norm_num)
    exact div_le_self (by positivity) k1
  unfold arcStep
  norm_num at a2 a3 hT heta uD ⊢
  linarith

/-- **C98** for plane `f64` cubics, with the format kept abstract. -/
theorem arclen_numbers {F : FloatFormat} {k : ℕ} (hk : 1 ≤ k) (hk' : k ≤ 10 ^ 6)
    (hS : HasSteps F k)
    (hu : F.u = 2 ^ (-(53 : ℕ) : ℤ)) (heta : F.eta ≤ 1 / 10 ^ 60) (hmx : 10 ^ 60 ≤ F.max)
    (c : CubicBezier (PointN (Fl F) 2)) {M D : ℝ} (hM : 0 ≤ M) (hM' : M ≤ 10 ^ 9)
    (hD' : D ≤ 10 ^ 10)
    (hs : BoundedBy M c.start) (hc : BoundedBy M c.ctrl1) (hc' : BoundedBy M c.ctrl2)
    (hd : BoundedBy M c.end_)
    (h1 : pdist c.start.real c.ctrl1.real ≤ D) (h2 : pdist c.ctrl1.real c.ctrl2.real ≤ D)
    (h3 : pdist c.ctrl2.real c.end_.real ≤ D) :
    ∃ r L, c.arclen k = some r ∧ c.real.arclen k = some L ∧ r.IsFinite ∧
      |r.toReal - L| ≤ k * (1 / 10 ^ 14 * (M + D) + 1 / 10 ^ 25) := by
  have e0 := F.eta_nonneg
  have u0 := F.u_nonneg
  have hD : 0 ≤ D := (pdist_nonneg _ _).trans h1
  have g3 : (1 + F.u) ^ (2 + 1) ≤ 2 := by rw [hu]; norm_num
  have g2 : (1 + F.u) ^ 2 ≤ 2 := by rw [hu]; norm_num
  have hkr : (k : ℝ) ≤ 10 ^ 6 := by exact_mod_cast hk'
  have gk : (1 + F.u) ^ k ≤ 100 / 99 := by
    apply g_pow_small u0 (by rw [hu]; norm_num)
    calc (k : ℝ) * F.u ≤ 10 ^ 6 * F.u := mul_le_mul_of_nonneg_right hkr u0
      _ ≤ 1 / 100 := by rw [hu]; norm_num
  have hX := arcStep_numbers (F := F) hu heta hk hM hD
  have hX0 : 0 ≤ arcStep F 2 k (20 * F.u * M + 14 * F.eta) (3 * D) := by
    have g5' := one_le_g (F := F) (2 + 3)
    have := distTiny_nonneg F 2
    have : 0 ≤ ((1 + F.u) ^ (2 + 3) - 1) * (3 * D / k) :=
      mul_nonneg (by linarith) (by positivity)
    unfold arcStep
    positivity
  have hbound : (1 + F.u) ^ k * (k * arcStep F 2 k (20 * F.u * M + 14 * F.eta) (3 * D))
      ≤ k * (1 / 10 ^ 14 * (M + D) + 1 / 10 ^ 25) := by
    have b1 : (1 + F.u) ^ k * arcStep F 2 k (20 * F.u * M + 14 * F.eta) (3 * D)
        ≤ 100 / 99 * (8 / 10 ^ 15 * M + 8 / 10 ^ 15 * D + 2 / 10 ^ 26) :=
      mul_le_mul gk hX hX0 (by norm_num)
    have b2 : (100 / 99 : ℝ) * (8 / 10 ^ 15 * M + 8 / 10 ^ 15 * D + 2 / 10 ^ 26)
        ≤ 1 / 10 ^ 14 * (M + D) + 1 / 10 ^ 25 := by
      norm_num
      linarith
    calc (1 + F.u) ^ k * (k * arcStep F 2 k (20 * F.u * M + 14 * F.eta) (3 * D))
        = k * ((1 + F.u) ^ k * arcStep F 2 k (20 * F.u * M + 14 * F.eta) (3 * D)) := by ring
      _ ≤ _ := mul_le_mul_of_nonneg_left (b1.trans b2) (Nat.cast_nonneg k)
  have hM2 : (5 * M + 4) ^ 2 ≤ 10 ^ 20 := by
    calc (5 * M + 4) ^ 2 ≤ (10 ^ 10) ^ 2 :=
          pow_le_pow_left₀ (by positivity) (by norm_num at hM' ⊢; linarith) 2
      _ = 10 ^ 20 := by norm_num
  obtain ⟨r, L, hr, hL, rf, h⟩ := C98_cubic hk hS (by rw [hu]; norm_num)
    (heta.trans (by norm_num)) c hM hs hc hc' hd h1 h2 h3
    (by
      have : (10 : ℝ) ^ 10 ≤ 10 ^ 60 := by norm_num
      norm_num at hM' this hmx ⊢
      linarith)
    (by
      have a1 : (1 + F.u) ^ (2 + 1) * (((2 : ℕ) : ℝ) * (5 * M + 4) ^ 2) ≤ 2 * (2 * 10 ^ 20) := by
        apply mul_le_mul g3 _ (by positivity) (by norm_num)
        push_cast
        linarith
      have a2 : 2 * ((2 : ℕ) : ℝ) * (1 + F.u) ^ 2 * F.eta ≤ 8 * 1 := by
        apply mul_le_mul _ (heta.trans (by norm_num)) e0 (by norm_num)
        push_cast
        linarith
      have : (2 : ℝ) * (2 * 10 ^ 20) + 8 * 1 ≤ 10 ^ 60 := by norm_num
      linarith)
    (by
      have a1 : (k : ℝ) * (1 / 10 ^ 14 * (M + D) + 1 / 10 ^ 25)
          ≤ 10 ^ 6 * (1 / 10 ^ 14 * (10 ^ 9 + 10 ^ 10) + 1 / 10 ^ 25) := by
        apply mul_le_mul hkr _ (by positivity) (by norm_num)
        have : M + D ≤ 10 ^ 9 + 10 ^ 10 := by linarith
        have := mul_le_mul_of_nonneg_left this (show (0 : ℝ) ≤ 1 / 10 ^ 14 by norm_num)
        linarith
      have a2 : 3 * (10 : ℝ) ^ 10 + 10 ^ 6 * (1 / 10 ^ 14 * (10 ^ 9 + 10 ^ 10) + 1 / 10 ^ 25)
          ≤ 10 ^ 60 := by norm_num
      linarith)
  exact ⟨r, L, hr, hL, rf, h.trans hbound⟩

section Binary64
variable (cosI acosI : ℝ → ℝ) (powI : ℝ → ℝ → ℝ)

theorem binary64_steps {k : ℕ} (hk : k ≤ 2 ^ 53) : HasSteps (binary64 cosI acosI powI) k :=
  ieee_steps (by norm_num) (by norm_num) (by norm_num) (by norm_num) cosI acosI powI hk

theorem binary32_steps {k : ℕ} (hk : k ≤ 2 ^ 24) : HasSteps (binary32 cosI acosI powI) k :=
  ieee_steps (by norm_num) (by norm_num) (by norm_num) (by norm_num) cosI acosI powI hk

/-- **C98** in numbers: for `f64` cubics in the plane with coordinates up to `M ≤ 10^9` and
neighbouring control points at most `D` apart, `arclen(k)` with up to a million steps is a finite
number, and differs from the exact sum by at most `10⁻¹⁴ (M + D)` per step. -/
theorem C98_cubic_binary64 {k : ℕ} (hk : 1 ≤ k) (hk' : k ≤ 10 ^ 6)
    (c : CubicBezier (PointN (Fl (binary64 cosI acosI powI)) 2)) {M D : ℝ} (hM : 0 ≤ M)
    (hM' : M ≤ 10 ^ 9) (hD' : D ≤ 10 ^ 10)
    (hs : BoundedBy M c.start) (hc : BoundedBy M c.ctrl1) (hc' : BoundedBy M c.ctrl2)
    (hd : BoundedBy M c.end_)
    (h1 : pdist c.start.real c.ctrl1.real ≤ D) (h2 : pdist c.ctrl1.real c.ctrl2.real ≤ D)
    (h3 : pdist c.ctrl2.real c.end_.real ≤ D) :
    ∃ r L, c.arclen k = some r ∧ c.real.arclen k = some L ∧ r.IsFinite ∧
      |r.toReal - L| ≤ k * (1 / 10 ^ 14 * (M + D) + 1 / 10 ^ 25) :=
  arclen_numbers hk hk' (binary64_steps cosI acosI powI (hk'.trans (by norm_num))) rfl
    (binary64_eta cosI acosI powI) (binary64_max cosI acosI powI) c hM hM' hD' hs hc hc' hd h1 h2 h3

/-- C98: in f64 the two parameters at which step `i` of `arclen(k)` evaluates the curve are in
[0, 1] and within `5e-16` of `i / k` and `(i + 1) / k`. -/
theorem C98_params {k i : ℕ} (hk : k ≤ 2 ^ 53) (hi : i < k) :
    let a : Fl (binary64 cosI acosI powI) := Scalar.ofUsize i * lit 1 / Scalar.ofUsize k
    let b : Fl (binary64 cosI acosI powI) := a + lit 1 / Scalar.ofUsize k
    (a.IsFinite ∧ 0 ≤ a.toReal ∧ a.toReal ≤ 1 ∧ |a.toReal - (i : ℝ) / k| ≤ 5 / 10 ^ 16) ∧
    (b.IsFinite ∧ 0 ≤ b.toReal ∧ b.toReal ≤ 1 ∧ |b.toReal - ((i + 1 : ℕ) : ℝ) / k| ≤ 5 / 10 ^ 16) := by
  have hu : (binary64 cosI acosI powI).u = 2 ^ (-(53 : ℕ) : ℤ) := rfl
  have he := binary64_eta cosI acosI powI
  have e : 4 * (binary64 cosI acosI powI).u + 4 * (binary64 cosI acosI powI).eta ≤ 5 / 10 ^ 16 := by
    rw [hu]
    norm_num at he ⊢
    linarith
  obtain ⟨a, b, ha, hb, ea, eb, ⟨a0, a1, a2⟩, b0, b1, b2⟩ :=
    step_params (binary64_steps cosI acosI powI hk) (by rw [hu]; norm_num)
      (he.trans (by norm_num)) hi
  rw [ea] at eb
  simp only [ea, eb, toReal_fin]
  exact ⟨⟨isFinite_iff.2 ⟨_, _, rfl⟩, a0, a1, a2.trans e⟩, isFinite_iff.2 ⟨_, _, rfl⟩, b0, b1,
    b2.trans e⟩

/-- **C98** against the true length of the curve: the computed value never exceeds it by more
than the rounding error, and falls short by at most that and a constant over k. -/
theorem C98_true_length (c : CubicBezier (PointN (Fl (binary64 cosI acosI powI)) 2)) {M D : ℝ}
    (hM : 0 ≤ M) (hM' : M ≤ 10 ^ 9) (hD' : D ≤ 10 ^ 10)
    (hs : BoundedBy M c.start) (hc : BoundedBy M c.ctrl1) (hc' : BoundedBy M c.ctrl2)
    (hd : BoundedBy M c.end_)
    (h1 : pdist c.start.real c.ctrl1.real ≤ D) (h2 : pdist c.ctrl1.real c.ctrl2.real ≤ D)
    (h3 : pdist c.ctrl2.real c.end_.real ≤ D) :
    ∃ K : ℝ, ∀ k : ℕ, 1 ≤ k → k ≤ 10 ^ 6 → ∃ r, c.arclen k = some r ∧ r.IsFinite ∧
      r.toReal ≤ arcLength 2 (fun t i => coord (c.real.derivative.eval t) i)
        + k * (1 / 10 ^ 14 * (M + D) + 1 / 10 ^ 25) ∧
      arcLength 2 (fun t i => coord (c.real.derivative.eval t) i) - K / k
        - k * (1 / 10 ^ 14 * (M + D) + 1 / 10 ^ 25) ≤ r.toReal := by
  obtain ⟨L, hL, ⟨K, hK⟩, _⟩ := C26_partial c.real
  refine ⟨K, fun k hk hk' => ?_⟩
  obtain ⟨r, L', hr, hL', rf, h⟩ := C98_cubic_binary64 cosI acosI powI hk hk' c hM hM' hD' hs hc
    hc' hd h1 h2 h3
  rw [hL k] at hL'
  cases hL'
  obtain ⟨b1, b2⟩ := hK k hk
  have e : arcLength (Point.dim (PointN ℝ 2)) (fun t i => coord (c.real.derivative.eval t) i)
      = arcLength 2 (fun t i => coord (c.real.derivative.eval t) i) := rfl
  rw [e] at b1 b2
  rw [abs_le] at h
  exact ⟨r, hr, rf, by linarith [h.2], by linarith [h.1]⟩

/-- The hypotheses are satisfiable: a curve with four different control points. -/
example : ∃ (c : CubicBezier (PointN (Fl (binary64 cosI acosI powI)) 2)) (D : ℝ),
    D ≤ 10 ^ 10 ∧ BoundedBy 10 c.start ∧ BoundedBy 10 c.ctrl1 ∧
    BoundedBy 10 c.ctrl2 ∧ BoundedBy 10 c.end_ ∧ pdist c.start.real c.ctrl1.real ≤ D ∧
    pdist c.ctrl1.real c.ctrl2.real ≤ D ∧ pdist c.ctrl2.real c.end_.real ≤ D ∧
    c.start ≠ c.end_ := by
  have ok : ∀ k : ℤ, |k| ≤ 10 → ((k : ℝ) ∈ (binary64 cosI acosI powI).grid ∧
      |(k : ℝ)| ≤ (binary64 cosI acosI powI).max) := fun k hk =>
    FloatFormat.int_ok _ k (hk.trans (by norm_num))
  have bd : ∀ k : ℤ, ∀ hk : |k| ≤ 10, BoundedBy 10
      (⟨fun _ => fin (k : ℝ) (ok k hk)⟩ : PointN (Fl (binary64 cosI acosI powI)) 2) := by
    intro k hk i
    refine ⟨trivial, ?_⟩
    show |(k : ℝ)| ≤ 10
    exact_mod_cast hk
  have near : ∀ (p q : PointN (Fl (binary64 cosI acosI powI)) 2), BoundedBy 10 p →
      BoundedBy 10 q → pdist p.real q.real ≤ 10 ^ 10 := by
    intro p q hp hq
    have h : pdist p.real q.real ≤ Real.sqrt (2 : ℕ) * 20 := by
      refine near_point (by norm_num) fun j => ?_
      have := (abs_sub (p.coords j).toReal (q.coords j).toReal).trans
        (add_le_add (hp j).2 (hq j).2)
      show |(p.coords j).toReal - (q.coords j).toReal| ≤ 20
      linarith
    have hsq2 : Real.sqrt ((2 : ℕ) : ℝ) ≤ 3 / 2 := by
      apply Real.sqrt_le_iff.2; norm_num
    norm_num at h hsq2 ⊢
    linarith
  have b1 := bd 1 (by norm_num)
  have b2 := bd 2 (by norm_num)
  have b3 := bd (-5) (by norm_num)
  have b4 := bd 7 (by norm_num)
  refine ⟨⟨_, _, _, _⟩, 10 ^ 10, le_rfl, b1, b2, b3, b4, near _ _ b1 b2, near _ _ b2 b3,
    near _ _ b3 b4, ?_⟩
  intro h
  have := congrArg (fun q : PointN (Fl (binary64 cosI acosI powI)) 2 => (q.coords 0).toReal) h
  norm_num at this

end Binary64

end Stroke
