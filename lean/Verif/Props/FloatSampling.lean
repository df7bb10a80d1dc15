import Verif.Props.FloatBSplineNear
import Verif.Props.FloatArcLength
import Verif.Props.FloatFlatten
import Verif.Props.Witnesses

/-!
# Sampling a B-spline by equal steps over its knot domain (C126)
-/

namespace Stroke

open Fl

/-- The parameter of sample `i` of `n` in the domain `[lo, hi]`, as a caller of `knot_domain` or
`arclen` (src/bspline.rs:445-448) computes it. -/
def sampleParam {S : Type} [Scalar S] (lo hi : S) (i n : ℕ) : S :=
  lo + (Scalar.ofUsize i / Scalar.ofUsize n) * (hi - lo)

/-- `arclen` takes these samples. -/
theorem arclen_samples {S P : Type} [Scalar S] [Point S P] {K C D : ℕ} (b : BSpline S P K C D)
    (n : ℕ) : b.arclen n = (do
      let (lo, hi) ← b.knotDomain
      forRange 0 (n + 1) (lit 0) fun i arclen => do
        let p1 ← b.evalOrDefault (sampleParam lo hi i n)
        let p2 ← b.evalOrDefault (sampleParam lo hi i n + lit 1 / Scalar.ofUsize n)
        pure (arclen + Scalar.sqrt (Point.squaredLength (p1 - p2)))) := rfl

variable {F : FloatFormat} {n : ℕ}

section
variable {a b : ℝ} {ha : a ∈ F.grid ∧ |a| ≤ F.max} {hb : b ∈ F.grid ∧ |b| ≤ F.max}

/-- The samples before the last rounding: `a + m`, where `m` grows with `i`. -/
theorem sample_eq (hab : a ≤ b) (hspan : F.rnd (b - a) ≤ F.max) (hn : 1 ≤ n)
    (hnum : ∀ i : ℕ, i ≤ n → (i : ℝ) ∈ F.grid ∧ |(i : ℝ)| ≤ F.max) {i : ℕ} (hi : i ≤ n) :
    (sampleParam (fin a ha) (fin b hb) i n : Fl F)
      = F.round (a + F.rnd (F.rnd ((i : ℝ) / n) * F.rnd (b - a))) ∧
    0 ≤ F.rnd ((i : ℝ) / n) ∧ F.rnd ((i : ℝ) / n) ≤ 1 ∧
    0 ≤ F.rnd (F.rnd ((i : ℝ) / n) * F.rnd (b - a)) ∧
    F.rnd (F.rnd ((i : ℝ) / n) * F.rnd (b - a)) ≤ F.rnd (b - a) := by
  have n0 : (0 : ℝ) < n := by exact_mod_cast hn
  have q0 : (0 : ℝ) ≤ (i : ℝ) / n := by positivity
  have q1 : (i : ℝ) / n ≤ 1 := by
    rw [div_le_one n0]; exact_mod_cast hi
  have m1 : (1 : ℝ) ≤ F.max := by linarith [F.max_ge]
  have r0 := F.rnd_nonneg q0
  have r1 : F.rnd ((i : ℝ) / n) ≤ 1 := by
    have := F.rnd_mono q1
    rwa [F.rnd_of_mem 1 F.one_mem] at this
  have s0 := F.rnd_nonneg (sub_nonneg.2 hab)
  have p0 : 0 ≤ F.rnd ((i : ℝ) / n) * F.rnd (b - a) := mul_nonneg r0 s0
  have t0 := F.rnd_nonneg p0
  have t1 : F.rnd (F.rnd ((i : ℝ) / n) * F.rnd (b - a)) ≤ F.rnd (b - a) := by
    have := F.rnd_mono (show F.rnd ((i : ℝ) / n) * F.rnd (b - a) ≤ F.rnd (b - a) from
      mul_le_of_le_one_left s0 r1)
    rwa [F.rnd_of_mem _ (F.rnd_mem (b - a))] at this
  refine ⟨?_, r0, r1, t0, t1⟩
  have eu : ∀ j : ℕ, ∀ hj : j ≤ n, (Scalar.ofUsize j : Fl F) = fin (j : ℝ) (hnum j hj) :=
    fun j hj => F.round_of_mem (hnum j hj)
  unfold sampleParam
  rw [eu i hi, eu n le_rfl, fin_div n0.ne', fin_sub,
    F.round_of_rnd_le (x := (i : ℝ) / n) (by rw [abs_of_nonneg r0]; linarith),
    F.round_of_rnd_le (x := b - a) (by rwa [abs_of_nonneg s0]), fin_mul,
    F.round_of_rnd_le (x := F.rnd ((i : ℝ) / n) * F.rnd (b - a))
      (by rw [abs_of_nonneg t0]; linarith), fin_add]

end

/-- **C126**: if the length of the domain is a number of the format, every sample is in the domain,
the first one is its start and the last one its end, and the samples do not go back. -/
theorem C126_inside_partial {lo hi : Fl F} (hlo : lo.IsFinite) (hhi : hi.IsFinite)
    (hle : lo.toReal ≤ hi.toReal)
    (hspan : hi.toReal - lo.toReal ∈ F.grid ∧ |hi.toReal - lo.toReal| ≤ F.max) (hn : 1 ≤ n)
    (hnum : ∀ i : ℕ, i ≤ n → (i : ℝ) ∈ F.grid ∧ |(i : ℝ)| ≤ F.max) :
    (∀ i, i ≤ n → (sampleParam lo hi i n).IsFinite ∧
      lo.toReal ≤ (sampleParam lo hi i n).toReal ∧ (sampleParam lo hi i n).toReal ≤ hi.toReal) ∧
    sampleParam lo hi 0 n = lo ∧ sampleParam lo hi n n = hi ∧
    ∀ i j, i ≤ j → j ≤ n →
      (sampleParam lo hi i n).toReal ≤ (sampleParam lo hi j n).toReal := by
  obtain ⟨a, ha, rfl⟩ := isFinite_iff.1 hlo
  obtain ⟨b, hb, rfl⟩ := isFinite_iff.1 hhi
  simp only [toReal_fin] at hle hspan ⊢
  have es : F.rnd (b - a) = b - a := F.rnd_of_mem _ hspan.1
  have n0 : (0 : ℝ) < n := by exact_mod_cast hn
  have key : ∀ i, i ≤ n → ∃ (r : ℝ) (hr : r ∈ F.grid ∧ |r| ≤ F.max),
      (sampleParam (fin a ha) (fin b hb) i n : Fl F) = fin r hr ∧
      r = F.rnd (a + F.rnd (F.rnd ((i : ℝ) / n) * (b - a))) ∧ a ≤ r ∧ r ≤ b := by
    intro i hi
    obtain ⟨e, _, _, t0, t1⟩ := sample_eq (ha := ha) (hb := hb) hle
      (by rw [es]; exact (le_abs_self _).trans hspan.2) hn hnum hi
    rw [es] at e t0 t1
    have l1 := F.rnd_mono (show a ≤ a + F.rnd (F.rnd ((i : ℝ) / n) * (b - a)) by linarith)
    have l2 := F.rnd_mono (show a + F.rnd (F.rnd ((i : ℝ) / n) * (b - a)) ≤ b by linarith)
    rw [F.rnd_of_mem _ ha.1] at l1
    rw [F.rnd_of_mem _ hb.1] at l2
    have hm : |F.rnd (a + F.rnd (F.rnd ((i : ℝ) / n) * (b - a)))| ≤ F.max :=
      abs_le.2 ⟨(abs_le.1 ha.2).1.trans l1, l2.trans (abs_le.1 hb.2).2⟩
    exact ⟨_, ⟨F.rnd_mem _, hm⟩, by rw [e, F.round_of_rnd_le hm], rfl, l1, l2⟩
  refine ⟨fun i hi => ?_, ?_, ?_, fun i j hij hj => ?_⟩
  · obtain ⟨r, hr, e, _, h1, h2⟩ := key i hi
    rw [e]
    exact ⟨trivial, h1, h2⟩
  · obtain ⟨r, hr, e, h, _⟩ := key 0 (by omega)
    rw [e]
    refine fin_congr ?_
    rw [h]
    simp only [Nat.cast_zero, zero_div, F.rnd_zero, zero_mul, add_zero]
    exact F.rnd_of_mem _ ha.1
  · obtain ⟨r, hr, e, h, _⟩ := key n le_rfl
    rw [e]
    refine fin_congr ?_
    rw [h, div_self n0.ne', F.rnd_of_mem 1 F.one_mem, one_mul, es, add_sub_cancel]
    exact F.rnd_of_mem _ hb.1
  · obtain ⟨r, hr, e, h, _⟩ := key i (by omega)
    obtain ⟨r', hr', e', h', _⟩ := key j hj
    rw [e, e', toReal_fin, toReal_fin, h, h']
    refine F.rnd_mono (add_le_add_right (F.rnd_mono (mul_le_mul_of_nonneg_right
      (F.rnd_mono (div_le_div_of_nonneg_right ?_ n0.le)) (by linarith))) a)
    exact_mod_cast hij

/-- **C126** for every domain: no sample is before the start, they do not go back, the first is
the start, and each is close to the exact one; so the last one passes the end by no more than the
rounding error. -/
theorem C126_close {lo hi : Fl F} (hu : F.u ≤ 1 / 1024) (he : F.eta ≤ 1 / 1024) (hlo : lo.IsFinite)
    (hhi : hi.IsFinite) (hle : lo.toReal ≤ hi.toReal) {M : ℝ} (hM : |lo.toReal| ≤ M)
    (hM' : |hi.toReal| ≤ M) (hmax : 4 * M ≤ F.max) (hn : 1 ≤ n)
    (hnum : ∀ i : ℕ, i ≤ n → (i : ℝ) ∈ F.grid ∧ |(i : ℝ)| ≤ F.max) :
    (∀ i, i ≤ n → (sampleParam lo hi i n).IsFinite ∧
      lo.toReal ≤ (sampleParam lo hi i n).toReal ∧
      |(sampleParam lo hi i n).toReal - (lo.toReal + i / n * (hi.toReal - lo.toReal))|
        ≤ 10 * F.u * M + 4 * F.eta * (1 + M)) ∧
    sampleParam lo hi 0 n = lo ∧
    ∀ i j, i ≤ j → j ≤ n →
      (sampleParam lo hi i n).toReal ≤ (sampleParam lo hi j n).toReal := by
  obtain ⟨a, ha, rfl⟩ := isFinite_iff.1 hlo
  obtain ⟨b, hb, rfl⟩ := isFinite_iff.1 hhi
  simp only [toReal_fin] at hle hM hM' ⊢
  have u0 := F.u_nonneg
  have e0 := F.eta_nonneg
  have M0 : 0 ≤ M := (abs_nonneg _).trans hM
  have n0 : (0 : ℝ) < n := by exact_mod_cast hn
  obtain ⟨a1, a2⟩ := abs_le.1 hM
  obtain ⟨b1, b2⟩ := abs_le.1 hM'
  have L0 : 0 ≤ b - a := by linarith
  have L2 : b - a ≤ 2 * M := by linarith
  have s0 := F.rnd_nonneg L0
  have es := F.rnd_err (b - a)
  rw [abs_of_nonneg L0] at es
  have uL : F.u * (b - a) ≤ 2 * (F.u * M) := by
    have := mul_le_mul_of_nonneg_left L2 u0
    linarith
  have uM : F.u * M ≤ M / 1024 := by
    have := mul_le_mul_of_nonneg_right hu M0
    linarith
  have uM0 : 0 ≤ F.u * M := mul_nonneg u0 M0
  have eM0 : 0 ≤ F.eta * M := mul_nonneg e0 M0
  have ue : F.u * F.eta ≤ F.eta / 1024 := by
    have := mul_le_mul_of_nonneg_right hu e0
    linarith
  have s1 : F.rnd (b - a) ≤ 2 * M + 2 * (F.u * M) + F.eta := by
    linarith [(abs_le.1 es).2]
  have us : F.u * F.rnd (b - a) ≤ 2 * (F.u * M) + 2 * (F.u * M) / 1024 + F.eta / 1024 := by
    have h1 := mul_le_mul_of_nonneg_left s1 u0
    have h2 : F.u * (F.u * M) ≤ (F.u * M) / 1024 := by
      have := mul_le_mul_of_nonneg_right hu uM0
      linarith
    nlinarith
  have m1024 := F.max_ge
  have smax : F.rnd (b - a) ≤ F.max := by
    linarith
  have key : ∀ i, i ≤ n → ∃ (r : ℝ) (hr : r ∈ F.grid ∧ |r| ≤ F.max),
      (sampleParam (fin a ha) (fin b hb) i n : Fl F) = fin r hr ∧
      r = F.rnd (a + F.rnd (F.rnd ((i : ℝ) / n) * F.rnd (b - a))) ∧ a ≤ r ∧
      |r - (a + i / n * (b - a))| ≤ 10 * F.u * M + 4 * F.eta * (1 + M) := by
    intro i hi
    obtain ⟨e, q0, q1, t0, t1⟩ := sample_eq (ha := ha) (hb := hb) hle smax hn hnum hi
    have x0 : (0 : ℝ) ≤ (i : ℝ) / n := by positivity
    have x1 : (i : ℝ) / n ≤ 1 := by
      rw [div_le_one n0]; exact_mod_cast hi
    have eq' := F.rnd_err ((i : ℝ) / n)
    rw [abs_of_nonneg x0] at eq'
    have em := F.rnd_err (F.rnd ((i : ℝ) / n) * F.rnd (b - a))
    have er := F.rnd_err (a + F.rnd (F.rnd ((i : ℝ) / n) * F.rnd (b - a)))
    have l1 := F.rnd_mono (show a ≤ a + F.rnd (F.rnd ((i : ℝ) / n) * F.rnd (b - a)) by linarith)
    rw [F.rnd_of_mem _ ha.1] at l1
    generalize F.rnd (b - a) = s at *
    generalize (i : ℝ) / n = x at *
    generalize F.rnd x = q at *
    rw [abs_of_nonneg (mul_nonneg q0 s0)] at em
    generalize F.rnd (q * s) = m at *
    have qs : q * s ≤ s := mul_le_of_le_one_left s0 q1
    have uqs : F.u * (q * s) ≤ F.u * s := mul_le_mul_of_nonneg_left qs u0
    have hq : |q - x| ≤ F.u + F.eta := eq'.trans (by
      have := mul_le_of_le_one_right u0 x1
      linarith)
    have d1 : |q * s - x * (b - a)| ≤ (F.u * (b - a) + F.eta) + (F.u + F.eta) * (b - a) := by
      have e1 : q * s - x * (b - a) = q * (s - (b - a)) + (q - x) * (b - a) := by ring
      rw [e1]
      refine (abs_add_le _ _).trans (add_le_add ?_ ?_)
      · rw [abs_mul, abs_of_nonneg q0]
        exact (mul_le_of_le_one_left (abs_nonneg _) q1).trans es
      · rw [abs_mul, abs_of_nonneg L0]
        exact mul_le_mul_of_nonneg_right hq L0
    have eL : F.eta * (b - a) ≤ 2 * (F.eta * M) := by
      have := mul_le_mul_of_nonneg_left L2 e0
      linarith
    have am : |a + m| ≤ M + s := by
      refine (abs_add_le _ _).trans ?_
      rw [abs_of_nonneg t0]
      linarith
    have uam : F.u * |a + m| ≤ F.u * M + F.u * s := by
      have := mul_le_mul_of_nonneg_left am u0
      linarith
    have fine : |F.rnd (a + m) - (a + x * (b - a))| ≤ 10 * F.u * M + 4 * F.eta * (1 + M) := by
      have e2 : F.rnd (a + m) - (a + x * (b - a))
          = (F.rnd (a + m) - (a + m)) + ((m - q * s) + (q * s - x * (b - a))) := by ring
      rw [e2]
      refine (abs_add_le _ _).trans ?_
      have := abs_add_le (m - q * s) (q * s - x * (b - a))
      linarith
    have hm : |F.rnd (a + m)| ≤ F.max := by
      have : |F.rnd (a + m)| ≤ |a + m| + (F.u * |a + m| + F.eta) := by
        have h := abs_add_le (a + m) (F.rnd (a + m) - (a + m))
        rw [add_sub_cancel] at h
        linarith
      linarith
    exact ⟨_, ⟨F.rnd_mem _, hm⟩, by rw [e, F.round_of_rnd_le hm], rfl, l1, fine⟩
  refine ⟨fun i hi => ?_, ?_, fun i j hij hj => ?_⟩
  · obtain ⟨r, hr, e, _, h1, h2⟩ := key i hi
    rw [e]
    exact ⟨trivial, h1, h2⟩
  · obtain ⟨r, hr, e, h, _⟩ := key 0 (by omega)
    rw [e]
    refine fin_congr ?_
    rw [h]
    simp only [Nat.cast_zero, zero_div, F.rnd_zero, zero_mul, add_zero]
    exact F.rnd_of_mem _ ha.1
  · obtain ⟨r, hr, e, h, _⟩ := key i (by omega)
    obtain ⟨r', hr', e', h', _⟩ := key j hj
    rw [e, e', toReal_fin, toReal_fin, h, h']
    refine F.rnd_mono (add_le_add_right (F.rnd_mono (mul_le_mul_of_nonneg_right
      (F.rnd_mono (div_le_div_of_nonneg_right ?_ n0.le)) s0)) a)
    exact_mod_cast hij

/-- `C126_close` for the domain [-1, 7] and 3 steps in binary64. -/
example (cosI acosI : ℝ → ℝ) (powI : ℝ → ℝ → ℝ) : let F := binary64 cosI acosI powI
    ∀ i, i ≤ 3 → |(sampleParam (lit (-1)) (lit 7) i 3 : Fl F).toReal - (-1 + i / 3 * 8)|
      ≤ 70 * F.u + 32 * F.eta := by
  intro F i hi
  have h1 : (lit (-1) : Fl F) = fin ((-1 : ℤ) : ℝ) (F.int_ok (-1) (by norm_num)) := by
    rw [← lit_int _ (by norm_num)]
    norm_num
  have h7 : (lit 7 : Fl F) = fin ((7 : ℤ) : ℝ) (F.int_ok 7 (by norm_num)) := by
    rw [← lit_int _ (by norm_num)]
    norm_num
  have hs := b64_small cosI acosI powI
  have h := (C126_close (F := F) (n := 3) (M := 7) (hs.1.trans (by norm_num))
    (hs.2.1.trans (by norm_num)) (isFinite_iff.2 ⟨_, _, h1⟩) (isFinite_iff.2 ⟨_, _, h7⟩)
    (by rw [h1, h7, toReal_fin, toReal_fin]; norm_num) (by rw [h1, toReal_fin]; norm_num)
    (by rw [h7, toReal_fin]; norm_num) (by linarith [F.max_ge]) (by norm_num)
    (fun i hi => (binary64_steps cosI acosI powI (k := 3) (by norm_num)).num i hi)).1 i hi
  refine (le_of_eq_of_le ?_ h.2.2).trans (by linarith)
  rw [h1, h7, toReal_fin, toReal_fin]
  norm_num

/-! ### Splines -/

section
variable {P : Type} [Point (Fl F) P] {K C D : ℕ}

/-- **C126**: if a spline is clamped at both ends and the length of its domain is a number of the
format, `eval` succeeds for every sample, and the last sample is the last control point. -/
theorem C126_spline_partial {knots : Arr (Fl F) K} {ps : Arr P C} {b : BSpline (Fl F) P K C D}
    (h : BSpline.new knots ps = .ok b) (hk : FiniteKnots knots)
    (hdiff : ∀ i j : Fin K, (knots j).toReal - (knots i).toReal ≤ F.max)
    (hf : NearFront D knots) (hb : NearBack D knots) (hC1 : C - 1 < C)
    {lo hi : Fl F} (hd : b.knotDomain = some (lo, hi))
    (hspan : hi.toReal - lo.toReal ∈ F.grid) (hn : 1 ≤ n)
    (hnum : ∀ i : ℕ, i ≤ n → (i : ℝ) ∈ F.grid ∧ |(i : ℝ)| ≤ F.max) :
    (∀ i, i ≤ n → ∃ q, b.eval (sampleParam lo hi i n) = .ok q) ∧
    b.eval (sampleParam lo hi n n) = .ok (ps ⟨C - 1, hC1⟩) := by
  obtain ⟨v1, v2, v3, _⟩ := (new_generic _ _ _).1 h
  have hm := (anyDecrease_finiteKnots hk).1 v3
  have hd' := domain_both h hf hb (by omega) (by omega)
  rw [hd] at hd'
  obtain ⟨e1, e2⟩ := Prod.mk.inj (Option.some.inj hd')
  have hDC : (knots ⟨D, by omega⟩).toReal ≤ (knots ⟨C, by omega⟩).toReal := hm _ _ (by
    show D ≤ C
    omega)
  have hle : lo.toReal ≤ hi.toReal := by rw [e1, e2]; exact hDC
  have hlo : lo.IsFinite := by rw [e1]; exact hk _
  have hhi : hi.IsFinite := by rw [e2]; exact hk _
  have hmax : |hi.toReal - lo.toReal| ≤ F.max := by
    rw [abs_of_nonneg (by linarith), e1, e2]
    exact hdiff _ _
  obtain ⟨h1, _, h3, _⟩ := C126_inside_partial hlo hhi hle ⟨hspan, hmax⟩ hn hnum
  constructor
  · intro i hi'
    obtain ⟨g1, g2, g3⟩ := h1 i hi'
    obtain ⟨r, hr, e⟩ := isFinite_iff.1 g1
    rw [e, toReal_fin] at g2 g3
    rw [e]
    refine C47_float_both h hk hdiff hf hb hr ?_ ?_
    · rw [knotAt_lt _ (by omega), ← e1]
      exact g2
    · rw [knotAt_lt _ (by omega), ← e2]
      exact g3
  · rw [h3, e2]
    exact C49_float_end h hk _ _

end

/-- `C126_spline_partial` for the knots 0, 0, 1, 2, 2 and 10 steps. -/
example : ∃ (knots : Arr (Fl F) 5) (b : BSpline (Fl F) (PointN (Fl F) 2) 5 3 1) (lo hi : Fl F),
    BSpline.new knots (fun _ => PointN.new fun _ => nan) = .ok b ∧ b.knotDomain = some (lo, hi) ∧
    lo.toReal = 0 ∧ hi.toReal = 2 ∧ ∀ i, i ≤ 10 → ∃ q, b.eval (sampleParam lo hi i 10) = .ok q := by
  obtain ⟨knots, b, hb, hk, hf, hb', hdiff, hv⟩ := clamped_float_witness (F := F)
  have near : ∀ i j : Fin 5, knots i = knots j →
      Scalar.lt (Scalar.abs (knots i - knots j)) (Scalar.epsilon : Fl F) = true := by
    intro i j e
    obtain ⟨x, hx, ex⟩ := isFinite_iff.1 (hk j)
    rw [e, ex, fin_sub, sub_self, F.round_of_mem F.zero_ok, epsilon_eq]
    refine lt_fin.2 ?_
    rw [abs_zero]
    exact F.epsilon_pos
  have nf : NearFront 1 knots := fun i j hi hj => near i j (hf i j hi (by omega))
  have nb : NearBack 1 knots := fun i j hi hj => near i j (hb' i j hi (by omega))
  have hd := domain_both hb nf nb (by norm_num) (by norm_num)
  have e1 : (knots ⟨1, by norm_num⟩).toReal = 0 := (hv 1).trans (by norm_num)
  have e2 : (knots ⟨3, by norm_num⟩).toReal = 2 := (hv 3).trans (by
    show ((2 : ℤ) : ℝ) = 2
    norm_num)
  refine ⟨knots, b, _, _, hb, hd, e1, e2, ?_⟩
  refine (C126_spline_partial hb hk hdiff nf nb (by norm_num) hd ?_ (by norm_num) ?_).1
  · rw [e1, e2]
    exact_mod_cast (F.int_ok 2 (by norm_num)).1
  · intro i hi
    exact_mod_cast F.int_ok i (by rw [abs_of_nonneg (by omega)]; omega)

/-- **C126** is false of the code: in binary64, for the knots 0.3, 0.3, 0.9, 0.9 and every number of
steps, the last sample 0.3 + (0.9 - 0.3) is after the end of the domain. There `eval` is an error,
and `arclen` goes on with the origin instead of the last control point. -/
theorem C126_false (cosI acosI : ℝ → ℝ) (powI : ℝ → ℝ → ℝ) :
    let F := binary64 cosI acosI powI
    let knots : Arr (Fl F) 4 := ![lit (3 / 10), lit (3 / 10), lit (9 / 10), lit (9 / 10)]
    ∀ ps : Arr (PointN (Fl F) 2) 2, ∃ b : BSpline (Fl F) (PointN (Fl F) 2) 4 2 1,
      BSpline.new knots ps = .ok b ∧ b.knotDomain = some (lit (3 / 10), lit (9 / 10)) ∧
      ∀ n : ℕ, 1 ≤ n → n ≤ 2 ^ 53 →
        b.eval (sampleParam (lit (3 / 10)) (lit (9 / 10)) n n) = .err .KnotDomainViolation ∧
        b.evalOrDefault (sampleParam (lit (3 / 10)) (lit (9 / 10)) n n) = some Point.default := by
  intro F knots ps
  have ok : ∀ (m e : ℤ) (x : ℝ), |m| ≤ 2 ^ 53 → -1074 ≤ e → x = m * 2 ^ e → |x| ≤ 1024 →
      x ∈ F.grid ∧ |x| ≤ F.max := fun m e x hm he hx hb =>
    ⟨⟨m, e, hm, he, hx⟩, hb.trans F.max_ge⟩
  have r3 : F.rnd (((3 / 10 : ℚ) : ℝ)) = 5404319552844595 * 2 ^ (-54 : ℤ) := by
    show ieeeRnd 53 (-1074) _ = _
    rw [ieeeRnd_binade (-2) 5404319552844595 (by norm_num) (by norm_num) (by norm_num)
      (Or.inl (by norm_num [abs_lt]))]
    norm_num
  have r9 : F.rnd (((9 / 10 : ℚ) : ℝ)) = 8106479329266893 * 2 ^ (-53 : ℤ) := by
    show ieeeRnd 53 (-1074) _ = _
    rw [ieeeRnd_binade (-1) 8106479329266893 (by norm_num) (by norm_num) (by norm_num)
      (Or.inl (by norm_num [abs_lt]))]
    norm_num
  have ok3 := ok 5404319552844595 (-54) (5404319552844595 * 2 ^ (-54 : ℤ)) (by norm_num) (by norm_num)
    (by norm_num) (by norm_num [abs_le])
  have ok9 := ok 8106479329266893 (-53) (8106479329266893 * 2 ^ (-53 : ℤ)) (by norm_num) (by norm_num)
    (by norm_num) (by norm_num [abs_le])
  have okd := ok 5404319552844596 (-53) (5404319552844596 * 2 ^ (-53 : ℤ)) (by norm_num) (by norm_num)
    (by norm_num) (by norm_num [abs_le])
  have oks := ok 8106479329266894 (-53) (8106479329266894 * 2 ^ (-53 : ℤ)) (by norm_num) (by norm_num)
    (by norm_num) (by norm_num [abs_le])
  have e3 : (lit (3 / 10) : Fl F) = fin _ ok3 := by
    show F.round _ = _
    rw [F.round_of_rnd_le (by rw [r3]; exact ok3.2)]
    exact fin_congr r3
  have e9 : (lit (9 / 10) : Fl F) = fin _ ok9 := by
    show F.round _ = _
    rw [F.round_of_rnd_le (by rw [r9]; exact ok9.2)]
    exact fin_congr r9
  have hk : FiniteKnots knots := by
    intro i
    fin_cases i
    · show (lit (3 / 10) : Fl F).IsFinite
      rw [e3]; trivial
    · show (lit (3 / 10) : Fl F).IsFinite
      rw [e3]; trivial
    · show (lit (9 / 10) : Fl F).IsFinite
      rw [e9]; trivial
    · show (lit (9 / 10) : Fl F).IsFinite
      rw [e9]; trivial
  have v : ∀ i : Fin 4, (knots i).toReal = (![5404319552844595 * 2 ^ (-54 : ℤ),
      5404319552844595 * 2 ^ (-54 : ℤ), 8106479329266893 * 2 ^ (-53 : ℤ),
      8106479329266893 * 2 ^ (-53 : ℤ)] : Fin 4 → ℝ) i := by
    intro i
    fin_cases i
    · exact congrArg toReal e3
    · exact congrArg toReal e3
    · exact congrArg toReal e9
    · exact congrArg toReal e9
  obtain ⟨b, hb⟩ := (C43_float (D := 1) hk ps).2 ⟨by norm_num, by norm_num, by
    intro i j hij
    show (knots i).toReal ≤ (knots j).toReal
    rw [v, v]
    revert hij
    fin_cases i <;> fin_cases j <;>
      first | (intro h; exact absurd h (by decide)) | (intro _; norm_num)⟩
  have same : ∀ i j : Fin 4, knots i = knots j →
      Scalar.lt (Scalar.abs (knots i - knots j)) (Scalar.epsilon : Fl F) = true := by
    intro i j e
    obtain ⟨x, hx, ex⟩ := isFinite_iff.1 (hk j)
    rw [e, ex, fin_sub, sub_self, F.round_of_mem F.zero_ok, epsilon_eq]
    refine lt_fin.2 ?_
    rw [abs_zero]
    exact F.epsilon_pos
  have nf : NearFront 1 knots := by
    intro i j hi hj
    refine same i j ?_
    revert hi hj
    fin_cases i <;> fin_cases j <;> simp [knots]
  have nb : NearBack 1 knots := by
    intro i j hi hj
    refine same i j ?_
    revert hi hj
    fin_cases i <;> fin_cases j <;> simp [knots]
  have hd : b.knotDomain = some (lit (3 / 10), lit (9 / 10)) := by
    rw [domain_both hb nf nb (by norm_num) (by norm_num)]
    rfl
  refine ⟨b, hb, hd, fun n h1 h2 => ?_⟩
  have hs : (sampleParam (lit (3 / 10)) (lit (9 / 10)) n n : Fl F) = fin _ oks := by
    have n0 : (0 : ℝ) < n := by exact_mod_cast h1
    have on : (n : ℝ) ∈ F.grid ∧ |(n : ℝ)| ≤ F.max := (binary64_steps cosI acosI powI h2).num n le_rfl
    unfold sampleParam
    rw [show (Scalar.ofUsize n : Fl F) = fin (n : ℝ) on from F.round_of_mem on, fin_div n0.ne',
      div_self n0.ne', F.round_of_mem F.one_ok, e3, e9, fin_sub]
    have rd : F.rnd (8106479329266893 * 2 ^ (-53 : ℤ) - 5404319552844595 * 2 ^ (-54 : ℤ))
        = 5404319552844596 * 2 ^ (-53 : ℤ) := by
      show ieeeRnd 53 (-1074) _ = _
      rw [ieeeRnd_binade (-1) 5404319552844596 (by norm_num) (by norm_num) (by norm_num)
        (Or.inr ⟨by norm_num, by decide⟩)]
      norm_num
    have rs : F.rnd (5404319552844595 * 2 ^ (-54 : ℤ) + 5404319552844596 * 2 ^ (-53 : ℤ))
        = 8106479329266894 * 2 ^ (-53 : ℤ) := by
      show ieeeRnd 53 (-1074) _ = _
      rw [ieeeRnd_binade (-1) 8106479329266894 (by norm_num) (by norm_num) (by norm_num)
        (Or.inr ⟨by norm_num, by decide⟩)]
      norm_num
    rw [F.round_of_rnd_le (by rw [rd]; exact okd.2),
      show (fin (F.rnd _) _ : Fl F) = fin _ okd from fin_congr rd, fin_mul, one_mul,
      F.round_of_mem okd, fin_add, F.round_of_rnd_le (by rw [rs]; exact oks.2)]
    exact fin_congr rs
  have hev : b.eval (sampleParam (lit (3 / 10)) (lit (9 / 10)) n n) = .err .KnotDomainViolation := by
    obtain ⟨lo, hi, hd', _, hout⟩ := C46_float hb hk
    rw [hd] at hd'
    obtain ⟨rfl, rfl⟩ := Prod.mk.inj (Option.some.inj hd')
    refine hout _ ?_
    rw [hs, e9, Bool.and_eq_false_iff]
    right
    rw [← Bool.not_eq_true, le_fin]
    norm_num
  exact ⟨hev, by rw [BSpline.evalOrDefault, hev]⟩

end Stroke
