import Verif.Props.FloatEndpoints

set_option linter.unusedSectionVars false

/-!
# Floating point: rounding errors of the specialised evaluation functions (C67)

`LineSegment::eval`, `QuadraticBezier::eval`, `QuadraticBezier::eval_casteljau`,
`CubicBezier::eval`, `CubicBezier::eval_casteljau` in every float format with `u, η ≤ 2⁻¹⁰`.
-/

namespace Stroke

variable {F : FloatFormat} {n : ℕ}

open Fl

/-- All coordinates of the point are finite and at most `M` in magnitude. -/
def BoundedBy (M : ℝ) (p : PointN (Fl F) n) : Prop :=
  ∀ i, (p.coords i).IsFinite ∧ |(p.coords i).toReal| ≤ M

/-! ### Error calculus -/

/-- `x` is a finite float whose exact counterpart is `v`, with `|v| ≤ A` and an error of at most
`((1+u)^k - 1) A + a`. -/
def Near (x : Fl F) (v A : ℝ) (k : ℕ) (a : ℝ) : Prop :=
  ∃ r h, x = fin r h ∧ |v| ≤ A ∧ |r - v| ≤ (1 + F.u) ^ k * A - A + a

theorem one_le_g (k : ℕ) : 1 ≤ (1 + F.u) ^ k :=
  one_le_pow₀ (by linarith [F.u_nonneg])

theorem Near.exact {x : Fl F} {A : ℝ} (hx : x.IsFinite) (hA : |x.toReal| ≤ A) :
    Near x x.toReal A 0 0 := by
  obtain ⟨r, h, rfl⟩ := isFinite_iff.1 hx
  exact ⟨r, h, rfl, hA, by simp [toReal]⟩

theorem Near.abs_le {r v A a : ℝ} {k : ℕ} (hv : |v| ≤ A) (hr : |r - v| ≤ (1 + F.u) ^ k * A - A + a) :
    |r| ≤ (1 + F.u) ^ k * A + a := by
  have := abs_add_le v (r - v)
  rw [add_sub_cancel] at this
  linarith

theorem Near.mul {x y : Fl F} {v w A B a b c : ℝ} {k l : ℕ} (hx : Near x v A k a)
    (hy : Near y w B l b) (ha : 0 ≤ a)
    (hc : (1 + F.u) * (a * ((1 + F.u) ^ l * B) + b * ((1 + F.u) ^ k * A) + a * b) + F.eta ≤ c)
    (hmax : (1 + F.u) ^ (k + l + 1) * (A * B) + c ≤ F.max) :
    Near (x * y) (v * w) (A * B) (k + l + 1) c := by
  obtain ⟨r, hr, rfl, hv, hrv⟩ := hx
  obtain ⟨s, hs, rfl, hw, hsw⟩ := hy
  have hu := F.u_nonneg
  have hA : 0 ≤ A := (abs_nonneg v).trans hv
  have hB : 0 ≤ B := (abs_nonneg w).trans hw
  have gk := one_le_g (F := F) k
  have gl := one_le_g (F := F) l
  have br := Near.abs_le hv hrv
  have bs := Near.abs_le hw hsw
  set K := (1 + F.u) ^ k with hK
  set L := (1 + F.u) ^ l with hL
  have eKL : (1 + F.u) ^ (k + l + 1) = K * L * (1 + F.u) := by rw [hK, hL]; ring
  rw [eKL] at hmax
  have hAB : |v * w| ≤ A * B := by
    rw [abs_mul]; exact mul_le_mul hv hw (abs_nonneg _) hA
  have hrs : |r * s| ≤ (K * A + a) * (L * B + b) := by
    rw [abs_mul]
    exact mul_le_mul br bs (abs_nonneg _) (by positivity)
  have hd : |r * s - v * w| ≤ (K * A + a) * (L * B + b) - A * B := by
    have e : r * s - v * w = (r - v) * (s - w) + v * (s - w) + (r - v) * w := by ring
    have h1 := abs_add_le ((r - v) * (s - w) + v * (s - w)) ((r - v) * w)
    have h2 := abs_add_le ((r - v) * (s - w)) (v * (s - w))
    rw [abs_mul] at h1
    rw [abs_mul, abs_mul] at h2
    have z1 : 0 ≤ K * A - A + a := (abs_nonneg _).trans hrv
    have h3 := mul_le_mul hrv hsw (abs_nonneg _) z1
    have h4 := mul_le_mul hv hsw (abs_nonneg _) hA
    have h5 := mul_le_mul hrv hw (abs_nonneg _) z1
    rw [e]
    nlinarith
  have hrnd := F.rnd_err (r * s)
  have h6 := mul_le_mul_of_nonneg_left hrs hu
  have herr : |F.rnd (r * s) - v * w| ≤ K * L * (1 + F.u) * (A * B) - A * B + c := by
    have h1 := abs_add_le (F.rnd (r * s) - r * s) (r * s - v * w)
    rw [sub_add_sub_cancel] at h1
    nlinarith
  have hbound : |F.rnd (r * s)| ≤ F.max := by
    have h1 := abs_add_le (v * w) (F.rnd (r * s) - v * w)
    rw [add_sub_cancel] at h1
    linarith
  refine ⟨F.rnd (r * s), ⟨F.rnd_mem _, hbound⟩, ?_, hAB, ?_⟩
  · rw [fin_mul, F.round_of_rnd_le hbound]
  · rw [eKL]; exact herr

theorem Near.weaken {x : Fl F} {v A a b : ℝ} {k l : ℕ} (hx : Near x v A k a) (hkl : k ≤ l)
    (hab : a ≤ b) : Near x v A l b := by
  obtain ⟨r, hr, rfl, hv, hrv⟩ := hx
  refine ⟨r, hr, rfl, hv, ?_⟩
  have hA : 0 ≤ A := (abs_nonneg v).trans hv
  have := pow_le_pow_right₀ (show 1 ≤ 1 + F.u by linarith [F.u_nonneg]) hkl
  have := mul_le_mul_of_nonneg_right this hA
  linarith

theorem Near.add {x y : Fl F} {v w A B a b c : ℝ} {k : ℕ} (hx : Near x v A k a)
    (hy : Near y w B k b)
    (hc : (1 + F.u) * (a + b) + F.eta ≤ c)
    (hmax : (1 + F.u) ^ (k + 1) * (A + B) + c ≤ F.max) :
    Near (x + y) (v + w) (A + B) (k + 1) c := by
  obtain ⟨r, hr, rfl, hv, hrv⟩ := hx
  obtain ⟨s, hs, rfl, hw, hsw⟩ := hy
  have hu := F.u_nonneg
  have hA : 0 ≤ A := (abs_nonneg v).trans hv
  have hB : 0 ≤ B := (abs_nonneg w).trans hw
  have br := Near.abs_le hv hrv
  have bs := Near.abs_le hw hsw
  set K := (1 + F.u) ^ k with hK
  have eK : (1 + F.u) ^ (k + 1) = K * (1 + F.u) := by rw [hK]; ring
  rw [eK] at hmax
  have hvw : |v + w| ≤ A + B := (abs_add_le _ _).trans (add_le_add hv hw)
  have hrs : |r + s| ≤ K * (A + B) + (a + b) := by
    refine (abs_add_le _ _).trans ?_
    linarith
  have hd : |r + s - (v + w)| ≤ K * (A + B) - (A + B) + (a + b) := by
    have h1 := abs_add_le (r - v) (s - w)
    rw [show r - v + (s - w) = r + s - (v + w) by ring] at h1
    linarith
  have hrnd := F.rnd_err (r + s)
  have h6 := mul_le_mul_of_nonneg_left hrs hu
  have herr : |F.rnd (r + s) - (v + w)| ≤ K * (1 + F.u) * (A + B) - (A + B) + c := by
    have h1 := abs_add_le (F.rnd (r + s) - (r + s)) (r + s - (v + w))
    rw [sub_add_sub_cancel] at h1
    nlinarith
  have hbound : |F.rnd (r + s)| ≤ F.max := by
    have h1 := abs_add_le (v + w) (F.rnd (r + s) - (v + w))
    rw [add_sub_cancel] at h1
    linarith
  refine ⟨F.rnd (r + s), ⟨F.rnd_mem _, hbound⟩, ?_, hvw, ?_⟩
  · rw [fin_add, F.round_of_rnd_le hbound]
  · rw [eK]; exact herr

/-- The weight `1 - t`. -/
theorem Near.oneMinus {t : ℝ} (ht : t ∈ F.grid ∧ |t| ≤ F.max) (t0 : 0 ≤ t) (t1 : t ≤ 1) :
    Near (-(fin t ht) + lit 1 : Fl F) (1 - t) (1 - t) 1 F.eta := by
  have w0 : 0 ≤ F.rnd (-t + 1) := F.rnd_nonneg (by linarith)
  have w1 : F.rnd (-t + 1) ≤ 1 := by
    have := F.rnd_mono (show -t + 1 ≤ 1 by linarith)
    rwa [F.rnd_of_mem 1 F.one_mem] at this
  have hb : |F.rnd (-t + 1)| ≤ F.max := by
    rw [abs_of_nonneg w0]; linarith [F.max_ge]
  refine ⟨F.rnd (-t + 1), ⟨F.rnd_mem _, hb⟩, ?_, (abs_of_nonneg (by linarith)).le, ?_⟩
  · rw [lit_one, fin_neg, fin_add]
    exact F.round_of_rnd_le hb
  · have := F.rnd_err (-t + 1)
    rw [abs_of_nonneg (show 0 ≤ -t + 1 by linarith)] at this
    rw [show 1 - t = -t + 1 by ring]
    linarith

theorem Near.int (m : ℕ) (hm : m ≤ 1024) : Near (lit (m : ℚ) : Fl F) m m 0 0 := by
  have h := lit_int (F := F) m (by rw [Nat.abs_cast]; exact_mod_cast hm)
  refine ⟨(m : ℤ), F.int_ok m (by rw [Nat.abs_cast]; exact_mod_cast hm), ?_, ?_, ?_⟩
  · rw [← h]; push_cast; rfl
  · simp
  · simp

theorem g_pow_le (hu : F.u ≤ 1 / 1024) (k : ℕ) (hk : k ≤ 16) : (1 + F.u) ^ k ≤ 33 / 32 := by
  have h0 := F.u_nonneg
  calc (1 + F.u) ^ k ≤ (1 + F.u) ^ 16 := pow_le_pow_right₀ (by linarith) hk
    _ ≤ (1 + 1 / 1024) ^ 16 := pow_le_pow_left₀ (by linarith) (by linarith) 16
    _ ≤ 33 / 32 := by norm_num

/-- `Near.mul` with the powers of `1 + u` estimated. -/
theorem Near.mul' {x y : Fl F} {v w A B A' B' a b c : ℝ} {k l : ℕ} (hx : Near x v A k a)
    (hy : Near y w B l b) (hu : F.u ≤ 1 / 1024) (ha : 0 ≤ a) (hb : 0 ≤ b) (hkl : k + l + 1 ≤ 16)
    (hA : A ≤ A') (hB : B ≤ B')
    (hc : 33 / 32 * (a * B' + b * A' + a * b) + F.eta ≤ c)
    (hmax : 33 / 32 * (A' * B') + c ≤ F.max) :
    Near (x * y) (v * w) (A * B) (k + l + 1) c := by
  have hA0 : 0 ≤ A := by obtain ⟨_, _, _, h, _⟩ := hx; exact (abs_nonneg v).trans h
  have hB0 : 0 ≤ B := by obtain ⟨_, _, _, h, _⟩ := hy; exact (abs_nonneg w).trans h
  have h0 := F.u_nonneg
  have e1 : (1 + F.u) * (1 + F.u) ^ l ≤ 33 / 32 := by
    rw [← pow_succ']; exact g_pow_le hu _ (by omega)
  have e2 : (1 + F.u) * (1 + F.u) ^ k ≤ 33 / 32 := by
    rw [← pow_succ']; exact g_pow_le hu _ (by omega)
  have e3 : 1 + F.u ≤ 33 / 32 := by linarith
  have f1 : (1 + F.u) * (1 + F.u) ^ l * (a * B) ≤ 33 / 32 * (a * B') :=
    mul_le_mul e1 (mul_le_mul_of_nonneg_left hB ha) (by positivity) (by norm_num)
  have f2 : (1 + F.u) * (1 + F.u) ^ k * (b * A) ≤ 33 / 32 * (b * A') :=
    mul_le_mul e2 (mul_le_mul_of_nonneg_left hA hb) (by positivity) (by norm_num)
  have f3 : (1 + F.u) * (a * b) ≤ 33 / 32 * (a * b) :=
    mul_le_mul_of_nonneg_right e3 (by positivity)
  have f4 : (1 + F.u) ^ (k + l + 1) * (A * B) ≤ 33 / 32 * (A' * B') :=
    mul_le_mul (g_pow_le hu _ hkl) (mul_le_mul hA hB hB0 (hA0.trans hA)) (by positivity)
      (by norm_num)
  exact Near.mul hx hy ha (by nlinarith) (by linarith)

/-- `Near.add` with the powers of `1 + u` estimated. -/
theorem Near.add' {x y : Fl F} {v w A B A' a b c : ℝ} {k l : ℕ} (hx : Near x v A k a)
    (hy : Near y w B l b) (hkl : l ≤ k) (hu : F.u ≤ 1 / 1024) (hab : 0 ≤ a + b) (hk : k + 1 ≤ 16)
    (hA : A + B ≤ A') (hc : 33 / 32 * (a + b) + F.eta ≤ c)
    (hmax : 33 / 32 * A' + c ≤ F.max) :
    Near (x + y) (v + w) (A + B) (k + 1) c := by
  have hA0 : 0 ≤ A := by obtain ⟨_, _, _, h, _⟩ := hx; exact (abs_nonneg v).trans h
  have hB0 : 0 ≤ B := by obtain ⟨_, _, _, h, _⟩ := hy; exact (abs_nonneg w).trans h
  have h0 := F.u_nonneg
  have e3 : 1 + F.u ≤ 33 / 32 := by linarith
  have f3 : (1 + F.u) * (a + b) ≤ 33 / 32 * (a + b) := mul_le_mul_of_nonneg_right e3 hab
  have f4 : (1 + F.u) ^ (k + 1) * (A + B) ≤ 33 / 32 * A' :=
    mul_le_mul (g_pow_le hu _ hk) hA (by positivity) (by norm_num)
  exact Near.add hx (hy.weaken hkl le_rfl) (by linarith) (by linarith)

theorem Near.result {x : Fl F} {v A a : ℝ} {k : ℕ} (h : Near x v A k a) :
    x.IsFinite ∧ |x.toReal - v| ≤ ((1 + F.u) ^ k - 1) * A + a := by
  obtain ⟨r, hr, rfl, _, h2⟩ := h
  exact ⟨trivial, by simpa [toReal, sub_mul] using h2⟩

/-! ### The direct formulas -/

/-- **C67**, `QuadraticBezier::eval`. -/
theorem C67_quadratic_eval (q : QuadraticBezier (PointN (Fl F) n)) {t M : ℝ}
    (ht : t ∈ F.grid ∧ |t| ≤ F.max) (t0 : 0 ≤ t) (t1 : t ≤ 1)
    (hu : F.u ≤ 1 / 1024) (he : F.eta ≤ 1 / 1024)
    (hs : BoundedBy M q.start) (hc : BoundedBy M q.ctrl) (hd : BoundedBy M q.end_)
    (hmax : 3 * M + 1 ≤ F.max) (i : Fin n) :
    ((q.eval (fin t ht)).coords i).IsFinite ∧
    |((q.eval (fin t ht)).coords i).toReal - ((1 - t) ^ 2 * (q.start.coords i).toReal
        + 2 * t * (1 - t) * (q.ctrl.coords i).toReal + t ^ 2 * (q.end_.coords i).toReal)|
      ≤ ((1 + F.u) ^ 6 - 1) * M + (13 * M + 11) * F.eta := by
  have e0 := F.eta_nonneg
  have hM : 0 ≤ M := (abs_nonneg _).trans (hs i).2
  have eM : 0 ≤ F.eta * M := mul_nonneg e0 hM
  have eM' : F.eta * M ≤ 1 / 1024 * M := mul_le_mul_of_nonneg_right he hM
  have ee : F.eta * F.eta ≤ 1 / 1024 * F.eta := mul_le_mul_of_nonneg_right he e0
  have mx := F.max_ge
  have nt : Near (fin t ht : Fl F) t t 0 0 :=
    Near.exact (x := fin t ht) trivial (abs_of_nonneg t0).le
  have no := Near.oneMinus ht t0 t1
  have nt2 : Near (fin t ht * fin t ht : Fl F) (t * t) (t * t) 1 F.eta :=
    nt.mul' nt hu le_rfl le_rfl (by norm_num) t1 t1 (by linarith) (by linarith)
  have no2 : Near ((-(fin t ht) + lit 1) * (-(fin t ht) + lit 1) : Fl F) ((1 - t) * (1 - t))
      ((1 - t) * (1 - t)) 3 (4 * F.eta) :=
    no.mul' no hu e0 e0 (by norm_num) (show 1 - t ≤ 1 by linarith) (show 1 - t ≤ 1 by linarith)
      (by linarith) (by linarith)
  have w1 : t * t ≤ 1 := by nlinarith
  have w2 : (1 - t) * (1 - t) ≤ 1 := by nlinarith
  have ns := Near.exact (hs i).1 (hs i).2
  have nc := Near.exact (hc i).1 (hc i).2
  have nd := Near.exact (hd i).1 (hd i).2
  have n2 : Near (lit 2 : Fl F) 2 2 0 0 := by
    have := Near.int (F := F) 2 (by norm_num); exact_mod_cast this
  have p1 : Near _ _ _ 4 ((5 * M + 1) * F.eta) := ns.mul' no2 hu le_rfl (by linarith) (by norm_num)
    le_rfl w2 (by linarith) (by linarith)
  have c1 : Near _ _ _ 1 F.eta := nc.mul' n2 hu le_rfl le_rfl (by norm_num) le_rfl le_rfl
    (by linarith) (by linarith)
  have c2 : Near _ _ _ 3 ((3 * M + 3) * F.eta) := c1.mul' no hu e0 e0 (by norm_num)
    le_rfl (show 1 - t ≤ 1 by linarith) (by linarith) (by linarith)
  have c3 : Near _ _ _ 4 ((4 * M + 5) * F.eta) := c2.mul' nt hu (by nlinarith) le_rfl (by norm_num)
    (show M * 2 * (1 - t) ≤ 2 * M by nlinarith) t1 (by linarith) (by linarith)
  have p3 : Near _ _ _ 2 ((2 * M + 1) * F.eta) := nd.mul' nt2 hu le_rfl e0 (by norm_num)
    le_rfl w1 (by linarith) (by linarith)
  have s1 : Near _ _ _ 5 ((10 * M + 8) * F.eta) := p1.add' c3 le_rfl hu (by nlinarith) (by norm_num)
    (show M * ((1 - t) * (1 - t)) + M * 2 * (1 - t) * t ≤ M by
      nlinarith [mul_nonneg hM (mul_nonneg t0 t0)]) (by linarith) (by linarith)
  have s2 : Near _ _ _ 6 ((13 * M + 11) * F.eta) := s1.add' p3 (by norm_num) hu (by nlinarith)
    (by norm_num) (show M * ((1 - t) * (1 - t)) + M * 2 * (1 - t) * t + M * (t * t) ≤ M by
      nlinarith) (by linarith) (by linarith)
  rw [show (q.start.coords i).toReal * ((1 - t) * (1 - t)) + (q.ctrl.coords i).toReal * 2 * (1 - t) * t
      + (q.end_.coords i).toReal * (t * t) = (1 - t) ^ 2 * (q.start.coords i).toReal
        + 2 * t * (1 - t) * (q.ctrl.coords i).toReal + t ^ 2 * (q.end_.coords i).toReal by ring,
    show M * ((1 - t) * (1 - t)) + M * 2 * (1 - t) * t + M * (t * t) = M by ring] at s2
  exact s2.result

/-- The four weights of `CubicBezier::eval`. -/
theorem cubic_weights {t : ℝ} (ht : t ∈ F.grid ∧ |t| ≤ F.max) (t0 : 0 ≤ t) (t1 : t ≤ 1)
    (hu : F.u ≤ 1 / 1024) (he : F.eta ≤ 1 / 1024) :
    Near ((-(fin t ht) + lit 1) * (-(fin t ht) + lit 1) * (-(fin t ht) + lit 1) : Fl F)
      ((1 - t) * (1 - t) * (1 - t)) ((1 - t) * (1 - t) * (1 - t)) 5 (7 * F.eta) ∧
    Near (fin t ht * (-(fin t ht) + lit 1) * (-(fin t ht) + lit 1) * lit 3 : Fl F)
      (t * (1 - t) * (1 - t) * 3) (t * (1 - t) * (1 - t) * 3) 5 (20 * F.eta) ∧
    Near (fin t ht * fin t ht * (-(fin t ht) + lit 1) * lit 3 : Fl F)
      (t * t * (1 - t) * 3) (t * t * (1 - t) * 3) 4 (14 * F.eta) ∧
    Near (fin t ht * fin t ht * fin t ht : Fl F) (t * t * t) (t * t * t) 2 (3 * F.eta) := by
  have e0 := F.eta_nonneg
  have ee : F.eta * F.eta ≤ 1 / 1024 * F.eta := mul_le_mul_of_nonneg_right he e0
  have mx := F.max_ge
  have nt : Near (fin t ht : Fl F) t t 0 0 :=
    Near.exact (x := fin t ht) trivial (abs_of_nonneg t0).le
  have no := Near.oneMinus ht t0 t1
  have o0 : 0 ≤ 1 - t := by linarith
  have o1 : 1 - t ≤ 1 := by linarith
  have n3 : Near (lit 3 : Fl F) 3 3 0 0 := by
    have := Near.int (F := F) 3 (by norm_num); exact_mod_cast this
  have ntt : Near (fin t ht * fin t ht : Fl F) (t * t) (t * t) 1 F.eta :=
    nt.mul' nt hu le_rfl le_rfl (by norm_num) t1 t1 (by linarith) (by linarith)
  have w2 : (1 - t) * (1 - t) ≤ 1 := by nlinarith
  have w3 : t * (1 - t) ≤ 1 := by nlinarith
  have w5 : t * t ≤ 1 := by nlinarith
  have w4 : t * (1 - t) * (1 - t) ≤ 1 := mul_le_one₀ w3 o0 o1
  have w6 : t * t * (1 - t) ≤ 1 := mul_le_one₀ w5 o0 o1
  refine ⟨?_, ?_, ?_, ?_⟩
  · have no2 := no.mul' (c := 4 * F.eta) no hu e0 e0 (by norm_num) o1 o1 (by linarith)
      (by linarith)
    exact no2.mul' no hu (by linarith) e0 (by norm_num) w2 o1 (by linarith) (by linarith)
  · have nto := nt.mul' (c := 3 * F.eta) no hu le_rfl e0 (by norm_num) t1 o1 (by linarith)
      (by linarith)
    have ntoo := nto.mul' (c := 6 * F.eta) no hu (by linarith) e0 (by norm_num) w3 o1
      (by linarith) (by linarith)
    exact ntoo.mul' n3 hu (by linarith) le_rfl (by norm_num) w4 le_rfl (by linarith) (by linarith)
  · have ntto := ntt.mul' (c := 4 * F.eta) no hu e0 e0 (by norm_num) w5 o1 (by linarith)
      (by linarith)
    exact ntto.mul' n3 hu (by linarith) le_rfl (by norm_num) w6 le_rfl (by linarith) (by linarith)
  · exact ntt.mul' nt hu e0 le_rfl (by norm_num) w5 t1 (by linarith) (by linarith)

/-- The sum of four products with weights adding up to 1. -/
theorem four_terms {x0 x1 x2 x3 y0 y1 y2 y3 : Fl F} {v0 v1 v2 v3 w0 w1 w2 w3 M : ℝ}
    (hu : F.u ≤ 1 / 1024) (he : F.eta ≤ 1 / 1024) (hM : 0 ≤ M) (hmax : 4 * M + 1 ≤ F.max)
    (z0 : 0 ≤ w0) (z1 : 0 ≤ w1) (z2 : 0 ≤ w2) (z3 : 0 ≤ w3) (hsum : w0 + w1 + w2 + w3 = 1)
    (hx0 : Near x0 v0 M 0 0) (hx1 : Near x1 v1 M 0 0) (hx2 : Near x2 v2 M 0 0)
    (hx3 : Near x3 v3 M 0 0)
    (hy0 : Near y0 w0 w0 5 (7 * F.eta)) (hy1 : Near y1 w1 w1 5 (20 * F.eta))
    (hy2 : Near y2 w2 w2 4 (14 * F.eta)) (hy3 : Near y3 w3 w3 2 (3 * F.eta)) :
    Near (x0 * y0 + x1 * y1 + x2 * y2 + x3 * y3) (v0 * w0 + v1 * w1 + v2 * w2 + v3 * w3) M 9
      ((54 * M + 10) * F.eta) := by
  have e0 := F.eta_nonneg
  have eM : 0 ≤ F.eta * M := mul_nonneg e0 hM
  have eM' : F.eta * M ≤ 1 / 1024 * M := mul_le_mul_of_nonneg_right he hM
  have mx := F.max_ge
  have p1 := hx0.mul' (c := (8 * M + 1) * F.eta) hy0 hu le_rfl (by linarith) (by norm_num)
    le_rfl (show w0 ≤ 1 by linarith) (by linarith) (by linarith)
  have p2 := hx1.mul' (c := (21 * M + 1) * F.eta) hy1 hu le_rfl (by linarith) (by norm_num)
    le_rfl (show w1 ≤ 1 by linarith) (by linarith) (by linarith)
  have p3 := hx2.mul' (c := (15 * M + 1) * F.eta) hy2 hu le_rfl (by linarith) (by norm_num)
    le_rfl (show w2 ≤ 1 by linarith) (by linarith) (by linarith)
  have p4 := hx3.mul' (c := (4 * M + 1) * F.eta) hy3 hu le_rfl (by linarith) (by norm_num)
    le_rfl (show w3 ≤ 1 by linarith) (by linarith) (by linarith)
  have m1 := mul_le_mul_of_nonneg_left (show w0 + w1 ≤ 1 by linarith) hM
  have m2 := mul_le_mul_of_nonneg_left (show w0 + w1 + w2 ≤ 1 by linarith) hM
  have m3 := mul_le_mul_of_nonneg_left (show w0 + w1 + w2 + w3 ≤ 1 by linarith) hM
  have s1 := p1.add' (c := (31 * M + 4) * F.eta) p2 le_rfl hu (by linarith) (by norm_num)
    (show M * w0 + M * w1 ≤ M by linarith) (by linarith) (by linarith)
  have s2 := s1.add' (c := (48 * M + 7) * F.eta) p3 (by norm_num) hu (by linarith) (by norm_num)
    (show M * w0 + M * w1 + M * w2 ≤ M by linarith) (by linarith) (by linarith)
  have s3 := s2.add' (c := (54 * M + 10) * F.eta) p4 (by norm_num) hu (by linarith) (by norm_num)
    (show M * w0 + M * w1 + M * w2 + M * w3 ≤ M by linarith) (by linarith) (by linarith)
  rwa [show M * w0 + M * w1 + M * w2 + M * w3 = M by rw [← mul_add, ← mul_add, ← mul_add, hsum, mul_one]]
    at s3

/-- **C67**, `CubicBezier::eval`. -/
theorem C67_cubic_eval (q : CubicBezier (PointN (Fl F) n)) {t M : ℝ}
    (ht : t ∈ F.grid ∧ |t| ≤ F.max) (t0 : 0 ≤ t) (t1 : t ≤ 1)
    (hu : F.u ≤ 1 / 1024) (he : F.eta ≤ 1 / 1024)
    (hs : BoundedBy M q.start) (hc : BoundedBy M q.ctrl1) (hc' : BoundedBy M q.ctrl2)
    (hd : BoundedBy M q.end_) (hmax : 4 * M + 1 ≤ F.max) (i : Fin n) :
    ((q.eval (fin t ht)).coords i).IsFinite ∧
    |((q.eval (fin t ht)).coords i).toReal - ((1 - t) ^ 3 * (q.start.coords i).toReal
        + 3 * t * (1 - t) ^ 2 * (q.ctrl1.coords i).toReal
        + 3 * t ^ 2 * (1 - t) * (q.ctrl2.coords i).toReal + t ^ 3 * (q.end_.coords i).toReal)|
      ≤ ((1 + F.u) ^ 9 - 1) * M + (54 * M + 10) * F.eta := by
  have o0 : 0 ≤ 1 - t := by linarith
  obtain ⟨h0, h1, h2, h3⟩ := cubic_weights ht t0 t1 hu he
  have s3 := four_terms hu he ((abs_nonneg _).trans (hs i).2) hmax (by positivity) (by positivity)
    (by positivity) (by positivity) (by ring)
    (Near.exact (hs i).1 (hs i).2) (Near.exact (hc i).1 (hc i).2)
    (Near.exact (hc' i).1 (hc' i).2) (Near.exact (hd i).1 (hd i).2) h0 h1 h2 h3
  rw [show (q.start.coords i).toReal * ((1 - t) * (1 - t) * (1 - t))
      + (q.ctrl1.coords i).toReal * (t * (1 - t) * (1 - t) * 3)
      + (q.ctrl2.coords i).toReal * (t * t * (1 - t) * 3)
      + (q.end_.coords i).toReal * (t * t * t) = (1 - t) ^ 3 * (q.start.coords i).toReal
        + 3 * t * (1 - t) ^ 2 * (q.ctrl1.coords i).toReal
        + 3 * t ^ 2 * (1 - t) * (q.ctrl2.coords i).toReal
        + t ^ 3 * (q.end_.coords i).toReal by ring] at s3
  exact s3.result

/-! ### De Casteljau's algorithm in the specialised types -/

/-- One step `a + (b - a) * t` in floating point: the two inputs are within `e` of `v`, `w`. -/
theorem step_error {a b : Fl F} {v w t M e : ℝ} (ht : t ∈ F.grid ∧ |t| ≤ F.max) (t0 : 0 ≤ t)
    (t1 : t ≤ 1) (hu : F.u ≤ 1 / 1024) (he : F.eta ≤ 1 / 1024)
    (ha : a.IsFinite ∧ |a.toReal - v| ≤ e) (hb : b.IsFinite ∧ |b.toReal - w| ≤ e)
    (hv : |v| ≤ M) (hw : |w| ≤ M) (hmax : 5 / 2 * (M + e) + 1 ≤ F.max) :
    (a + (b - a) * fin t ht).IsFinite ∧
    |(a + (b - a) * fin t ht).toReal - ((1 - t) * v + t * w)|
      ≤ e + F.u * (6 * (M + e)) + 4 * F.eta := by
  have h0 := F.u_nonneg
  have e0 := F.eta_nonneg
  obtain ⟨x, hx, rfl⟩ := isFinite_iff.1 ha.1
  obtain ⟨y, hy, rfl⟩ := isFinite_iff.1 hb.1
  have ha2 : |x - v| ≤ e := ha.2
  have hb2 : |y - w| ≤ e := hb.2
  have bx : |x| ≤ M + e := by
    have := abs_add_le v (x - v); rw [add_sub_cancel] at this; linarith
  have bY : |y| ≤ M + e := by
    have := abs_add_le w (y - w); rw [add_sub_cancel] at this; linarith
  have hB : 0 ≤ M + e := (abs_nonneg x).trans bx
  set B := M + e with hBdef
  have uB : F.u * B ≤ 1 / 1024 * B := mul_le_mul_of_nonneg_right hu hB
  have uB0 : 0 ≤ F.u * B := mul_nonneg h0 hB
  have ue : F.u * F.eta ≤ 1 / 1024 * F.eta := mul_le_mul_of_nonneg_right hu e0
  have uuB : F.u * (F.u * B) ≤ 1 / 1024 * (F.u * B) := mul_le_mul_of_nonneg_right hu uB0
  have d1 : |y - x| ≤ 2 * B := by
    have := abs_sub y x; linarith
  have r1 := F.rnd_err (y - x)
  have r1' := mul_le_mul_of_nonneg_left d1 h0
  set D := F.rnd (y - x) with hD
  have bD : |D| ≤ 2 * B + 2 * (F.u * B) + F.eta := by
    have := abs_add_le (y - x) (D - (y - x)); rw [add_sub_cancel] at this; linarith
  have mD : |D| ≤ F.max := by linarith
  have bDt : |D * t| ≤ 2 * B + 2 * (F.u * B) + F.eta := by
    rw [abs_mul, abs_of_nonneg t0]
    exact (mul_le_of_le_one_right (abs_nonneg _) t1).trans bD
  have r2 := F.rnd_err (D * t)
  have r2' := mul_le_mul_of_nonneg_left bDt h0
  set E := F.rnd (D * t) with hE
  have bE : |E - D * t| ≤ 2 * (F.u * B) + 2 * (F.u * (F.u * B)) + F.u * F.eta + F.eta := by
    linarith
  have bE2 : |E| ≤ 2 * B + 1 / 100 * B + 1 / 100 := by
    have := abs_add_le (D * t) (E - D * t); rw [add_sub_cancel] at this; linarith
  have mE : |E| ≤ F.max := by linarith
  -- the exact step on the computed inputs
  have bS : |x + (y - x) * t| ≤ B := by
    have e1 : x + (y - x) * t = (1 - t) * x + t * y := by ring
    have h1 := abs_add_le ((1 - t) * x) (t * y)
    rw [abs_mul, abs_mul, abs_of_nonneg t0, abs_of_nonneg (show 0 ≤ 1 - t by linarith)] at h1
    have h2 := mul_le_mul_of_nonneg_left bx (show 0 ≤ 1 - t by linarith)
    have h3 := mul_le_mul_of_nonneg_left bY t0
    rw [e1]; linarith
  have dDt : |D * t - (y - x) * t| ≤ 2 * (F.u * B) + F.eta := by
    rw [← sub_mul, abs_mul, abs_of_nonneg t0]
    refine (mul_le_of_le_one_right (abs_nonneg _) t1).trans ?_
    linarith
  have dS : |x + E - (x + (y - x) * t)| ≤ 4 * (F.u * B) + 2 * (F.u * (F.u * B))
      + F.u * F.eta + 2 * F.eta := by
    have := abs_add_le (E - D * t) (D * t - (y - x) * t)
    rw [show E - D * t + (D * t - (y - x) * t) = x + E - (x + (y - x) * t) by ring] at this
    linarith
  have bT : |x + E| ≤ B + 1 / 100 * B + 1 / 100 := by
    have := abs_add_le (x + (y - x) * t) (x + E - (x + (y - x) * t))
    rw [add_sub_cancel] at this; linarith
  have r3 := F.rnd_err (x + E)
  have bT' : |x + E| ≤ B + (4 * (F.u * B) + 2 * (F.u * (F.u * B)) + F.u * F.eta + 2 * F.eta) := by
    have := abs_add_le (x + (y - x) * t) (x + E - (x + (y - x) * t))
    rw [add_sub_cancel] at this; linarith
  have r3' := mul_le_mul_of_nonneg_left bT' h0
  have uu2 : F.u * (F.u * (F.u * B)) ≤ 1 / 1024 * (F.u * (F.u * B)) :=
    mul_le_mul_of_nonneg_right hu (mul_nonneg h0 uB0)
  have uue : F.u * (F.u * F.eta) ≤ 1 / 1024 * (F.u * F.eta) :=
    mul_le_mul_of_nonneg_right hu (mul_nonneg h0 e0)
  have mT : |F.rnd (x + E)| ≤ F.max := by
    have := abs_add_le (x + E) (F.rnd (x + E) - (x + E)); rw [add_sub_cancel] at this; linarith
  have eq : fin x hx + (fin y hy - fin x hx) * fin t ht
      = (fin (F.rnd (x + E)) ⟨F.rnd_mem _, mT⟩ : Fl F) := by
    rw [fin_sub, F.round_of_rnd_le mD, fin_mul, F.round_of_rnd_le mE, fin_add,
      F.round_of_rnd_le mT]
  rw [eq]
  refine ⟨trivial, ?_⟩
  have dP : |x + (y - x) * t - ((1 - t) * v + t * w)| ≤ e := by
    have e1 : x + (y - x) * t - ((1 - t) * v + t * w) = (1 - t) * (x - v) + t * (y - w) := by ring
    have h1 := abs_add_le ((1 - t) * (x - v)) (t * (y - w))
    rw [abs_mul, abs_mul, abs_of_nonneg t0, abs_of_nonneg (show 0 ≤ 1 - t by linarith)] at h1
    have h2 := mul_le_mul_of_nonneg_left ha2 (show 0 ≤ 1 - t by linarith)
    have h3 := mul_le_mul_of_nonneg_left hb2 t0
    rw [e1]; linarith
  show |F.rnd (x + E) - ((1 - t) * v + t * w)| ≤ _
  have h1 := abs_add_le (F.rnd (x + E) - (x + E)) (x + E - (x + (y - x) * t))
  have h2 := abs_add_le (F.rnd (x + E) - (x + (y - x) * t))
    (x + (y - x) * t - ((1 - t) * v + t * w))
  rw [sub_add_sub_cancel] at h1 h2
  linarith

theorem abs_lerp_le {v w t M : ℝ} (t0 : 0 ≤ t) (t1 : t ≤ 1) (hv : |v| ≤ M) (hw : |w| ≤ M) :
    |(1 - t) * v + t * w| ≤ M := by
  have h1 := abs_add_le ((1 - t) * v) (t * w)
  rw [abs_mul, abs_mul, abs_of_nonneg t0, abs_of_nonneg (show 0 ≤ 1 - t by linarith)] at h1
  have h2 := mul_le_mul_of_nonneg_left hv (show 0 ≤ 1 - t by linarith)
  have h3 := mul_le_mul_of_nonneg_left hw t0
  linarith

/-- **C67**, `LineSegment::eval`. -/
theorem C67_line_eval (l : LineSegment (PointN (Fl F) n)) {t M : ℝ}
    (ht : t ∈ F.grid ∧ |t| ≤ F.max) (t0 : 0 ≤ t) (t1 : t ≤ 1)
    (hu : F.u ≤ 1 / 1024) (he : F.eta ≤ 1 / 1024)
    (hs : BoundedBy M l.start) (hd : BoundedBy M l.end_) (hmax : 5 / 2 * M + 1 ≤ F.max)
    (i : Fin n) :
    ((l.eval (fin t ht)).coords i).IsFinite ∧
    |((l.eval (fin t ht)).coords i).toReal
        - ((1 - t) * (l.start.coords i).toReal + t * (l.end_.coords i).toReal)|
      ≤ 6 * F.u * M + 4 * F.eta := by
  have := step_error (e := 0) ht t0 t1 hu he (a := l.start.coords i) (b := l.end_.coords i)
    (v := (l.start.coords i).toReal) (w := (l.end_.coords i).toReal)
    ⟨(hs i).1, by simp⟩ ⟨(hd i).1, by simp⟩ (hs i).2 (hd i).2 (by linarith)
  exact ⟨this.1, this.2.trans (by linarith)⟩

/-- **C67**, `QuadraticBezier::eval_casteljau`. -/
theorem C67_quadratic_casteljau (q : QuadraticBezier (PointN (Fl F) n)) {t M : ℝ}
    (ht : t ∈ F.grid ∧ |t| ≤ F.max) (t0 : 0 ≤ t) (t1 : t ≤ 1)
    (hu : F.u ≤ 1 / 1024) (he : F.eta ≤ 1 / 1024)
    (hs : BoundedBy M q.start) (hc : BoundedBy M q.ctrl) (hd : BoundedBy M q.end_)
    (hmax : 3 * M + 2 ≤ F.max) (i : Fin n) :
    ((q.evalCasteljau (fin t ht)).coords i).IsFinite ∧
    |((q.evalCasteljau (fin t ht)).coords i).toReal - ((1 - t) ^ 2 * (q.start.coords i).toReal
        + 2 * t * (1 - t) * (q.ctrl.coords i).toReal + t ^ 2 * (q.end_.coords i).toReal)|
      ≤ 13 * F.u * M + 9 * F.eta := by
  have h0 := F.u_nonneg
  have e0 := F.eta_nonneg
  have hM : 0 ≤ M := (abs_nonneg _).trans (hs i).2
  have uM : F.u * M ≤ 1 / 1024 * M := mul_le_mul_of_nonneg_right hu hM
  have uuM : F.u * (F.u * M) ≤ 1 / 1024 * (F.u * M) :=
    mul_le_mul_of_nonneg_right hu (mul_nonneg h0 hM)
  have ue : F.u * F.eta ≤ 1 / 1024 * F.eta := mul_le_mul_of_nonneg_right hu e0
  have uM0 : 0 ≤ F.u * M := mul_nonneg h0 hM
  have l1 := C67_line_eval ⟨q.start, q.ctrl⟩ ht t0 t1 hu he hs hc (by linarith) i
  have l2 := C67_line_eval ⟨q.ctrl, q.end_⟩ ht t0 t1 hu he hc hd (by linarith) i
  have s := step_error ht t0 t1 hu he l1 l2 (abs_lerp_le t0 t1 (hs i).2 (hc i).2)
    (abs_lerp_le t0 t1 (hc i).2 (hd i).2) (by linarith)
  refine ⟨s.1, ?_⟩
  have s2 := s.2
  rw [show (1 - t) * ((1 - t) * (q.start.coords i).toReal + t * (q.ctrl.coords i).toReal)
      + t * ((1 - t) * (q.ctrl.coords i).toReal + t * (q.end_.coords i).toReal)
      = (1 - t) ^ 2 * (q.start.coords i).toReal
        + 2 * t * (1 - t) * (q.ctrl.coords i).toReal + t ^ 2 * (q.end_.coords i).toReal by ring] at s2
  exact s2.trans (by linarith)

/-- **C67**, `CubicBezier::eval_casteljau`. -/
theorem C67_cubic_casteljau (q : CubicBezier (PointN (Fl F) n)) {t M : ℝ}
    (ht : t ∈ F.grid ∧ |t| ≤ F.max) (t0 : 0 ≤ t) (t1 : t ≤ 1)
    (hu : F.u ≤ 1 / 1024) (he : F.eta ≤ 1 / 1024)
    (hs : BoundedBy M q.start) (hc : BoundedBy M q.ctrl1) (hc' : BoundedBy M q.ctrl2)
    (hd : BoundedBy M q.end_) (hmax : 3 * M + 2 ≤ F.max) (i : Fin n) :
    ((q.evalCasteljau (fin t ht)).coords i).IsFinite ∧
    |((q.evalCasteljau (fin t ht)).coords i).toReal - ((1 - t) ^ 3 * (q.start.coords i).toReal
        + 3 * t * (1 - t) ^ 2 * (q.ctrl1.coords i).toReal
        + 3 * t ^ 2 * (1 - t) * (q.ctrl2.coords i).toReal + t ^ 3 * (q.end_.coords i).toReal)|
      ≤ 20 * F.u * M + 14 * F.eta := by
  have h0 := F.u_nonneg
  have e0 := F.eta_nonneg
  have hM : 0 ≤ M := (abs_nonneg _).trans (hs i).2
  have uM : F.u * M ≤ 1 / 1024 * M := mul_le_mul_of_nonneg_right hu hM
  have uuM : F.u * (F.u * M) ≤ 1 / 1024 * (F.u * M) :=
    mul_le_mul_of_nonneg_right hu (mul_nonneg h0 hM)
  have ue : F.u * F.eta ≤ 1 / 1024 * F.eta := mul_le_mul_of_nonneg_right hu e0
  have uM0 : 0 ≤ F.u * M := mul_nonneg h0 hM
  have l1 := C67_quadratic_casteljau ⟨q.start, q.ctrl1, q.ctrl2⟩ ht t0 t1 hu he hs hc hc'
    hmax i
  have l2 := C67_quadratic_casteljau ⟨q.ctrl1, q.ctrl2, q.end_⟩ ht t0 t1 hu he hc hc' hd
    hmax i
  have m1 := abs_lerp_le t0 t1 (hs i).2 (hc i).2
  have m2 := abs_lerp_le t0 t1 (hc i).2 (hc' i).2
  have m3 := abs_lerp_le t0 t1 (hc' i).2 (hd i).2
  have k1 := abs_lerp_le t0 t1 m1 m2
  have k2 := abs_lerp_le t0 t1 m2 m3
  rw [show (1 - t) * ((1 - t) * (q.start.coords i).toReal + t * (q.ctrl1.coords i).toReal)
      + t * ((1 - t) * (q.ctrl1.coords i).toReal + t * (q.ctrl2.coords i).toReal)
      = (1 - t) ^ 2 * (q.start.coords i).toReal
        + 2 * t * (1 - t) * (q.ctrl1.coords i).toReal + t ^ 2 * (q.ctrl2.coords i).toReal by ring]
    at k1
  rw [show (1 - t) * ((1 - t) * (q.ctrl1.coords i).toReal + t * (q.ctrl2.coords i).toReal)
      + t * ((1 - t) * (q.ctrl2.coords i).toReal + t * (q.end_.coords i).toReal)
      = (1 - t) ^ 2 * (q.ctrl1.coords i).toReal
        + 2 * t * (1 - t) * (q.ctrl2.coords i).toReal + t ^ 2 * (q.end_.coords i).toReal by ring]
    at k2
  have s := step_error ht t0 t1 hu he l1 l2 k1 k2 (by linarith)
  refine ⟨s.1, ?_⟩
  have s2 := s.2
  simp only at s2
  rw [show (1 - t) * ((1 - t) ^ 2 * (q.start.coords i).toReal
        + 2 * t * (1 - t) * (q.ctrl1.coords i).toReal + t ^ 2 * (q.ctrl2.coords i).toReal)
      + t * ((1 - t) ^ 2 * (q.ctrl1.coords i).toReal
        + 2 * t * (1 - t) * (q.ctrl2.coords i).toReal + t ^ 2 * (q.end_.coords i).toReal)
      = (1 - t) ^ 3 * (q.start.coords i).toReal
        + 3 * t * (1 - t) ^ 2 * (q.ctrl1.coords i).toReal
        + 3 * t ^ 2 * (1 - t) * (q.ctrl2.coords i).toReal
        + t ^ 3 * (q.end_.coords i).toReal by ring] at s2
  exact s2.trans (by linarith)

/-- **C67**: the two evaluation functions of a quadratic curve agree up to rounding. -/
theorem C67_quadratic_agree (q : QuadraticBezier (PointN (Fl F) n)) {t M : ℝ}
    (ht : t ∈ F.grid ∧ |t| ≤ F.max) (t0 : 0 ≤ t) (t1 : t ≤ 1)
    (hu : F.u ≤ 1 / 1024) (he : F.eta ≤ 1 / 1024)
    (hs : BoundedBy M q.start) (hc : BoundedBy M q.ctrl) (hd : BoundedBy M q.end_)
    (hmax : 3 * M + 2 ≤ F.max) (i : Fin n) :
    |((q.eval (fin t ht)).coords i).toReal - ((q.evalCasteljau (fin t ht)).coords i).toReal|
      ≤ ((1 + F.u) ^ 6 - 1 + 13 * F.u) * M + (13 * M + 20) * F.eta := by
  have h1 := (C67_quadratic_eval q ht t0 t1 hu he hs hc hd (by linarith) i).2
  have h2 := (C67_quadratic_casteljau q ht t0 t1 hu he hs hc hd hmax i).2
  rw [abs_sub_comm] at h2
  refine (abs_sub_le _ _ _).trans ((add_le_add h1 h2).trans (le_of_eq ?_))
  ring

/-- **C67**: the two evaluation functions of a cubic curve agree up to rounding. -/
theorem C67_cubic_agree (q : CubicBezier (PointN (Fl F) n)) {t M : ℝ}
    (ht : t ∈ F.grid ∧ |t| ≤ F.max) (t0 : 0 ≤ t) (t1 : t ≤ 1)
    (hu : F.u ≤ 1 / 1024) (he : F.eta ≤ 1 / 1024)
    (hs : BoundedBy M q.start) (hc : BoundedBy M q.ctrl1) (hc' : BoundedBy M q.ctrl2)
    (hd : BoundedBy M q.end_) (hmax : 4 * M + 2 ≤ F.max) (i : Fin n) :
    |((q.eval (fin t ht)).coords i).toReal - ((q.evalCasteljau (fin t ht)).coords i).toReal|
      ≤ ((1 + F.u) ^ 9 - 1 + 20 * F.u) * M + (54 * M + 24) * F.eta := by
  have hM : 0 ≤ M := (abs_nonneg _).trans (hs i).2
  have h1 := (C67_cubic_eval q ht t0 t1 hu he hs hc hc' hd (by linarith) i).2
  have h2 := (C67_cubic_casteljau q ht t0 t1 hu he hs hc hc' hd (by linarith) i).2
  rw [abs_sub_comm] at h2
  refine (abs_sub_le _ _ _).trans ((add_le_add h1 h2).trans (le_of_eq ?_))
  ring

/-- The hypotheses: binary64 and binary32 have `u, η ≤ 2⁻¹⁰`, so that every curve with integer
coordinates of magnitude at most 255, say, is covered at every float parameter in [0, 1]. -/
example (cosI acosI : ℝ → ℝ) (powI : ℝ → ℝ → ℝ) : let F := binary64 cosI acosI powI
    F.u ≤ 1 / 1024 ∧ F.eta ≤ 1 / 1024 ∧ 4 * (255 : ℝ) + 2 ≤ F.max ∧
    BoundedBy 255 (⟨fun i => lit (i.val * 100 - 255 : ℤ)⟩ : PointN (Fl F) 5) := by
  intro F
  refine ⟨?_, ?_, ?_, fun i => ?_⟩
  · show (2 : ℝ) ^ (-(53 : ℕ) : ℤ) ≤ _
    norm_num
  · show (2 : ℝ) ^ ((-1074 : ℤ) - 1) ≤ _
    calc (2 : ℝ) ^ ((-1074 : ℤ) - 1) ≤ 2 ^ (-10 : ℤ) :=
          zpow_le_zpow_right₀ (by norm_num) (by norm_num)
      _ ≤ _ := by norm_num
  · linarith [F.max_ge]
  · have hi := i.isLt
    have h : |(i.val : ℤ) * 100 - 255| ≤ 255 := by rw [abs_le]; omega
    have e := lit_int (F := F) ((i.val : ℤ) * 100 - 255) (h.trans (by norm_num))
    simp only
    rw [e]
    refine ⟨trivial, ?_⟩
    show |(((i.val : ℤ) * 100 - 255 : ℤ) : ℝ)| ≤ 255
    exact_mod_cast h

example (cosI acosI : ℝ → ℝ) (powI : ℝ → ℝ → ℝ) : let F := binary32 cosI acosI powI
    F.u ≤ 1 / 1024 ∧ F.eta ≤ 1 / 1024 := by
  intro F
  refine ⟨?_, ?_⟩
  · show (2 : ℝ) ^ (-(24 : ℕ) : ℤ) ≤ _
    norm_num
  · show (2 : ℝ) ^ ((-149 : ℤ) - 1) ≤ _
    calc (2 : ℝ) ^ ((-149 : ℤ) - 1) ≤ 2 ^ (-10 : ℤ) :=
          zpow_le_zpow_right₀ (by norm_num) (by norm_num)
      _ ≤ _ := by norm_num

end Stroke
