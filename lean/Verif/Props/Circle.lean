import Verif.Props.FloatEval
import Verif.Props.Cubic

/-!
# The circle approximation (C85)

The unit test `circle_approximation_error` (src/cubic_bezier.rs:418-475) samples four cubic curves
which approximate the quadrants of the unit circle at 1001 parameters and checks the radial
error.  Here for every parameter, in exact arithmetic and in binary64.
-/

set_option linter.unusedSectionVars false

namespace Stroke

open Fl

/-- src/cubic_bezier.rs:428 `c`. -/
def circleC : ℚ := 551915024494 / 10 ^ 12

/-- src/cubic_bezier.rs:432-455: the four quadrants. -/
def circleQuadrant (S : Type) [Scalar S] (k : Fin 4) : CubicBezier (PointN S 2) :=
  let c : S := lit circleC
  let p (x y : S) : PointN S 2 := ⟨fun i => if i = 0 then x else y⟩
  match k with
  | 0 => ⟨p (lit 0) (lit 1), p c (lit 1), p (lit 1) c, p (lit 1) (lit 0)⟩
  | 1 => ⟨p (lit 1) (lit 0), p (lit 1) (-c), p c (-lit 1), p (lit 0) (-lit 1)⟩
  | 2 => ⟨p (lit 0) (-lit 1), p (-c) (-lit 1), p (-lit 1) (-c), p (-lit 1) (lit 0)⟩
  | 3 => ⟨p (-lit 1) (lit 0), p (-lit 1) c, p (-c) (lit 1), p (lit 0) (lit 1)⟩

/-- The Bernstein form of degree 3. -/
noncomputable def bern3 (t a b c d : ℝ) : ℝ :=
  (1 - t) ^ 3 * a + 3 * t * (1 - t) ^ 2 * b + 3 * t ^ 2 * (1 - t) * c + t ^ 3 * d

/-- The squared radius of the exact curve. -/
theorem circle_core {t : ℝ} (t0 : 0 ≤ t) (t1 : t ≤ 1) :
    (1 - 196077 / 10 ^ 9) ^ 2 ≤ bern3 t 0 (circleC : ℝ) 1 1 ^ 2 + bern3 t 1 1 (circleC : ℝ) 0 ^ 2 ∧
    bern3 t 0 (circleC : ℝ) 1 1 ^ 2 + bern3 t 1 1 (circleC : ℝ) 0 ^ 2
      ≤ (1 + 196077 / 10 ^ 9) ^ 2 := by
  set c : ℝ := (circleC : ℝ) with hc
  have hc' : c = 551915024494 / 10 ^ 12 := by
    rw [hc]
    unfold circleC
    norm_num
  set s := t * (1 - t) with hs
  have s0 : 0 ≤ s := mul_nonneg t0 (by linarith)
  have s1 : s ≤ 1 / 4 := by rw [hs]; nlinarith [sq_nonneg (t - 1 / 2)]
  have key : bern3 t 0 c 1 1 ^ 2 + bern3 t 1 1 c 0 ^ 2
      = 1 + s ^ 2 * ((9 * c ^ 2 + 6 * c - 6) - (18 * c ^ 2 - 24 * c + 8) * s) := by
    rw [hs]
    unfold bern3
    ring
  rw [key, hc']
  clear_value s c
  clear hs key hc' hc
  have q0 : 0 ≤ s ^ 2 := sq_nonneg s
  have q1 : s ^ 2 ≤ 1 / 16 := by nlinarith
  constructor
  · have e : ∀ a b : ℝ, 1 + s ^ 2 * (a - b * s) = 1 + s ^ 2 * (a - b / 4)
        + b * (s ^ 2 * (1 / 4 - s)) := by intro a b; ring
    rw [e]
    have k1 : 0 ≤ s ^ 2 * (1 / 4 - s) := mul_nonneg q0 (by linarith)
    norm_num at *
    linarith
  · have k1 : 0 ≤ (s - 149020 / 10 ^ 6) ^ 2 * (s + 74510 / 10 ^ 6) :=
      mul_nonneg (sq_nonneg _) (by linarith)
    norm_num at *
    nlinarith

/-- Points close to each other have close radii. -/
theorem radius_lipschitz (a b x y : ℝ) :
    |Real.sqrt (a ^ 2 + b ^ 2) - Real.sqrt (x ^ 2 + y ^ 2)| ≤ |a - x| + |b - y| := by
  have key : ∀ a b x y : ℝ, Real.sqrt (a ^ 2 + b ^ 2)
      ≤ Real.sqrt (x ^ 2 + y ^ 2) + (|a - x| + |b - y|) := by
    intro a b x y
    have h0 := Real.sqrt_nonneg (x ^ 2 + y ^ 2)
    have h1 := Real.sq_sqrt (show 0 ≤ x ^ 2 + y ^ 2 by positivity)
    have n1 := abs_nonneg (a - x)
    have n2 := abs_nonneg (b - y)
    have hx : |x| ≤ Real.sqrt (x ^ 2 + y ^ 2) := Real.abs_le_sqrt (by linarith [sq_nonneg y])
    have hy : |y| ≤ Real.sqrt (x ^ 2 + y ^ 2) := Real.abs_le_sqrt (by linarith [sq_nonneg x])
    have k1 : x * (a - x) ≤ Real.sqrt (x ^ 2 + y ^ 2) * |a - x| := by
      calc x * (a - x) ≤ |x * (a - x)| := le_abs_self _
        _ = |x| * |a - x| := abs_mul _ _
        _ ≤ _ := mul_le_mul_of_nonneg_right hx n1
    have k2 : y * (b - y) ≤ Real.sqrt (x ^ 2 + y ^ 2) * |b - y| := by
      calc y * (b - y) ≤ |y * (b - y)| := le_abs_self _
        _ = |y| * |b - y| := abs_mul _ _
        _ ≤ _ := mul_le_mul_of_nonneg_right hy n2
    apply Real.sqrt_le_iff.2
    refine ⟨by positivity, ?_⟩
    have k3 := sq_abs (a - x)
    have k4 := sq_abs (b - y)
    have k5 := mul_nonneg n1 n2
    nlinarith
  rw [abs_le]
  constructor
  · have := key x y a b
    rw [abs_sub_comm x a, abs_sub_comm y b] at this
    linarith
  · linarith [key a b x y]

/-- The radius of the exact curve. -/
theorem circle_radius {t : ℝ} (t0 : 0 ≤ t) (t1 : t ≤ 1) :
    |Real.sqrt (bern3 t 0 (circleC : ℝ) 1 1 ^ 2 + bern3 t 1 1 (circleC : ℝ) 0 ^ 2) - 1|
      ≤ 196077 / 10 ^ 9 := by
  obtain ⟨h1, h2⟩ := circle_core t0 t1
  have l1 := Real.le_sqrt_of_sq_le h1
  have l2 := (Real.sqrt_le_sqrt h2).trans_eq (Real.sqrt_sq (by norm_num))
  rw [abs_le]
  constructor <;> linarith

/-- The coordinates of the four quadrants in terms of the first. -/
theorem quadrant_coords (k : Fin 4) (t : ℝ) :
    let f := fun q : CubicBezier (PointN ℝ 2) => fun i => bern3 t (q.start.coords i)
      (q.ctrl1.coords i) (q.ctrl2.coords i) (q.end_.coords i)
    f (circleQuadrant ℝ k) 0 ^ 2 + f (circleQuadrant ℝ k) 1 ^ 2
      = bern3 t 0 (circleC : ℝ) 1 1 ^ 2 + bern3 t 1 1 (circleC : ℝ) 0 ^ 2 := by
  intro f
  have h0 : (lit 0 : ℝ) = 0 := Rat.cast_zero
  have h1 : (lit 1 : ℝ) = 1 := Rat.cast_one
  have hc : (lit circleC : ℝ) = (circleC : ℝ) := rfl
  fin_cases k <;>
  · simp only [f, circleQuadrant, h0, h1, hc]
    simp [bern3]
    try ring

/-- **C85** in exact arithmetic: at every parameter in [0, 1] the four curves of the unit test
are within 0.019608 % of the unit circle. -/
theorem C85_exact (k : Fin 4) {t : ℝ} (t0 : 0 ≤ t) (t1 : t ≤ 1) :
    |Real.sqrt (((circleQuadrant ℝ k).eval t).coords 0 ^ 2
        + ((circleQuadrant ℝ k).eval t).coords 1 ^ 2) - 1| ≤ 19608 / 10 ^ 8 := by
  have h := circle_radius t0 t1
  have e := quadrant_coords k t
  have ev : ∀ i : Fin 2, ((circleQuadrant ℝ k).eval t).coords i = bern3 t
      ((circleQuadrant ℝ k).start.coords i) ((circleQuadrant ℝ k).ctrl1.coords i)
      ((circleQuadrant ℝ k).ctrl2.coords i) ((circleQuadrant ℝ k).end_.coords i) := by
    intro i
    have h1 : (lit 1 : ℝ) = 1 := Rat.cast_one
    have h3 : (lit 3 : ℝ) = 3 := Rat.cast_ofNat 3
    show (circleQuadrant ℝ k).start.coords i * ((-t + lit 1) * (-t + lit 1) * (-t + lit 1))
      + (circleQuadrant ℝ k).ctrl1.coords i * (t * (-t + lit 1) * (-t + lit 1) * lit 3)
      + (circleQuadrant ℝ k).ctrl2.coords i * (t * t * (-t + lit 1) * lit 3)
      + (circleQuadrant ℝ k).end_.coords i * (t * t * t) = _
    rw [h1, h3]
    unfold bern3
    ring
  simp only at e
  rw [ev, ev, e]
  refine h.trans ?_
  norm_num

/-- Every control point coordinate of the curves in binary64: finite, at most 1 in magnitude, and
the exact one up to rounding the constant `c`. -/
theorem quadrant_float (F : FloatFormat) (k : Fin 4) (i : Fin 2) :
    let ok := fun (x : Fl F) (y : ℝ) => (x.IsFinite ∧ |x.toReal| ≤ 1) ∧ |x.toReal - y| ≤ F.u + F.eta
    ok ((circleQuadrant (Fl F) k).start.coords i) ((circleQuadrant ℝ k).start.coords i) ∧
    ok ((circleQuadrant (Fl F) k).ctrl1.coords i) ((circleQuadrant ℝ k).ctrl1.coords i) ∧
    ok ((circleQuadrant (Fl F) k).ctrl2.coords i) ((circleQuadrant ℝ k).ctrl2.coords i) ∧
    ok ((circleQuadrant (Fl F) k).end_.coords i) ((circleQuadrant ℝ k).end_.coords i) := by
  intro ok
  have u0 := F.u_nonneg
  have e0 := F.eta_nonneg
  have hneg : ∀ x y, ok x y → ok (-x) (-y) := by
    rintro x y ⟨⟨h1, h2⟩, h3⟩
    obtain ⟨r, hr, rfl⟩ := isFinite_iff.1 h1
    rw [toReal_fin] at h2 h3
    rw [fin_neg]
    refine ⟨⟨trivial, ?_⟩, ?_⟩
    · rw [toReal_fin, abs_neg]; exact h2
    · rw [toReal_fin, show -r - -y = -(r - y) by ring, abs_neg]; exact h3
  have hz : ok (lit 0) (lit 0) := by
    have h0 : (lit 0 : ℝ) = 0 := Rat.cast_zero
    rw [h0, lit_zero]
    refine ⟨⟨trivial, ?_⟩, ?_⟩ <;> rw [toReal_fin]
    · norm_num
    · rw [sub_zero, abs_zero]; linarith
  have ho : ok (lit 1) (lit 1) := by
    have h0 : (lit 1 : ℝ) = 1 := Rat.cast_one
    rw [h0, lit_one]
    refine ⟨⟨trivial, ?_⟩, ?_⟩ <;> rw [toReal_fin]
    · norm_num
    · rw [sub_self, abs_zero]; linarith
  have hc : ok (lit circleC) (lit circleC) := by
    have hb : |((circleC : ℚ) : ℝ)| ≤ 1 := by
      unfold circleC
      norm_num [abs_le]
    have e : (lit circleC : Fl F) = F.round ((circleC : ℚ) : ℝ) := rfl
    rw [e, F.round_of_le (hb.trans (by linarith [F.max_ge]))]
    refine ⟨⟨trivial, ?_⟩, ?_⟩ <;> rw [toReal_fin]
    · exact F.abs_rnd_le F.one_mem hb
    · refine (F.rnd_err _).trans ?_
      have := mul_le_mul_of_nonneg_left hb u0
      linarith
  clear_value ok
  fin_cases k <;> fin_cases i <;> refine ⟨?_, ?_, ?_, ?_⟩ <;>
    first
      | exact hz | exact ho | exact hc | exact hneg _ _ ho | exact hneg _ _ hc

/-- The Bernstein form moves by no more than the control points. -/
theorem bern3_perturb {t a b c d a' b' c' d' e : ℝ} (t0 : 0 ≤ t) (t1 : t ≤ 1) (ha : |a - a'| ≤ e)
    (hb : |b - b'| ≤ e) (hc : |c - c'| ≤ e) (hd : |d - d'| ≤ e) :
    |bern3 t a b c d - bern3 t a' b' c' d'| ≤ e := by
  rw [abs_le] at *
  have o0 : 0 ≤ 1 - t := by linarith
  have w0 : 0 ≤ (1 - t) ^ 3 := by positivity
  have w1 : 0 ≤ 3 * t * (1 - t) ^ 2 := by positivity
  have w2 : 0 ≤ 3 * t ^ 2 * (1 - t) := by positivity
  have w3 : 0 ≤ t ^ 3 := by positivity
  have hsum : (1 - t) ^ 3 + 3 * t * (1 - t) ^ 2 + 3 * t ^ 2 * (1 - t) + t ^ 3 = 1 := by ring
  unfold bern3
  generalize (1 - t) ^ 3 = A at *
  generalize 3 * t * (1 - t) ^ 2 = B at *
  generalize 3 * t ^ 2 * (1 - t) = C at *
  generalize t ^ 3 = D at *
  have l1 := mul_le_mul_of_nonneg_left ha.1 w0
  have l2 := mul_le_mul_of_nonneg_left hb.1 w1
  have l3 := mul_le_mul_of_nonneg_left hc.1 w2
  have l4 := mul_le_mul_of_nonneg_left hd.1 w3
  have r1 := mul_le_mul_of_nonneg_left ha.2 w0
  have r2 := mul_le_mul_of_nonneg_left hb.2 w1
  have r3 := mul_le_mul_of_nonneg_left hc.2 w2
  have r4 := mul_le_mul_of_nonneg_left hd.2 w3
  have es : e = A * e + B * e + C * e + D * e := by rw [← add_mul, ← add_mul, ← add_mul, hsum, one_mul]
  constructor <;> linarith

/-- **C85** in binary64: `eval` at every float in [0, 1] returns a point within 0.019608 % of the
unit circle, for all four curves. -/
theorem C85_binary64 (cosI acosI : ℝ → ℝ) (powI : ℝ → ℝ → ℝ) (k : Fin 4) {t : ℝ}
    (ht : t ∈ (binary64 cosI acosI powI).grid ∧ |t| ≤ (binary64 cosI acosI powI).max)
    (t0 : 0 ≤ t) (t1 : t ≤ 1) :
    let p := (circleQuadrant (Fl (binary64 cosI acosI powI)) k).eval (fin t ht)
    FinitePoint p ∧
    |Real.sqrt ((p.coords 0).toReal ^ 2 + (p.coords 1).toReal ^ 2) - 1| ≤ 19608 / 10 ^ 8 := by
  intro p
  have hu : (binary64 cosI acosI powI).u = 2 ^ (-(53 : ℕ) : ℤ) := rfl
  have he : (binary64 cosI acosI powI).eta ≤ 1 / 10 ^ 30 := by
    show (2 : ℝ) ^ ((-1074 : ℤ) - 1) ≤ _
    calc (2 : ℝ) ^ ((-1074 : ℤ) - 1) ≤ 2 ^ (-100 : ℤ) :=
          zpow_le_zpow_right₀ (by norm_num) (by norm_num)
      _ ≤ _ := by norm_num
  have hmx := (binary64 cosI acosI powI).max_ge
  have hev := C67_cubic_eval (circleQuadrant (Fl (binary64 cosI acosI powI)) k) (M := 1) ht t0 t1
    (by rw [hu]; norm_num) (he.trans (by norm_num))
    (fun i => (quadrant_float _ k i).1.1) (fun i => (quadrant_float _ k i).2.1.1)
    (fun i => (quadrant_float _ k i).2.2.1.1) (fun i => (quadrant_float _ k i).2.2.2.1)
    (by linarith)
  refine ⟨fun i => (hev i).1, ?_⟩
  have hclose : ∀ i : Fin 2, |(p.coords i).toReal - bern3 t
      ((circleQuadrant ℝ k).start.coords i) ((circleQuadrant ℝ k).ctrl1.coords i)
      ((circleQuadrant ℝ k).ctrl2.coords i) ((circleQuadrant ℝ k).end_.coords i)|
      ≤ 1 / 10 ^ 12 := by
    intro i
    have h1 := (hev i).2
    have h2 := bern3_perturb t0 t1 (quadrant_float (binary64 cosI acosI powI) k i).1.2
      (quadrant_float (binary64 cosI acosI powI) k i).2.1.2
      (quadrant_float (binary64 cosI acosI powI) k i).2.2.1.2
      (quadrant_float (binary64 cosI acosI powI) k i).2.2.2.2
    have h3 := abs_sub_le _ _ _ |>.trans (add_le_add h1 h2)
    refine h3.trans ?_
    rw [hu]
    generalize (binary64 cosI acosI powI).eta = η at *
    have : ((1 + (2 : ℝ) ^ (-(53 : ℕ) : ℤ)) ^ 9 - 1) * 1 + (2 : ℝ) ^ (-(53 : ℕ) : ℤ)
        ≤ 1 / 10 ^ 13 := by norm_num
    norm_num at this he ⊢
    linarith
  have hr := circle_radius t0 t1
  have e := quadrant_coords k t
  simp only at e
  rw [← e] at hr
  have hl := radius_lipschitz (p.coords 0).toReal (p.coords 1).toReal _ _ |>.trans
    (add_le_add (hclose 0) (hclose 1))
  have h := abs_sub_le _ _ _ |>.trans (add_le_add hl hr)
  refine h.trans ?_
  norm_num

/-- The hypotheses: `t = 1/2`. -/
example (cosI acosI : ℝ → ℝ) (powI : ℝ → ℝ → ℝ) :
    (1 / 2 : ℝ) ∈ (binary64 cosI acosI powI).grid ∧
      |(1 / 2 : ℝ)| ≤ (binary64 cosI acosI powI).max := by
  refine ⟨⟨1, -1, by norm_num, by norm_num, by norm_num⟩, ?_⟩
  have := (binary64 cosI acosI powI).max_ge
  rw [abs_of_pos (by norm_num)]
  linarith

end Stroke
