import Verif.Props.Circle
import Verif.Props.FloatStability

/-!
# Rounding errors of `split` (C86)

The halves returned by `split` in floating point trace the two parts of the exact curve up to
rounding, and the errors of repeated subdivision add up.
-/

set_option linter.unusedSectionVars false

namespace Stroke

open Fl

variable {F : FloatFormat} {n : ℕ}

/-- The exact quadratic curve with real control points `a`, `b`, `c`. -/
noncomputable def bern2 (t a b c : ℝ) : ℝ := (1 - t) ^ 2 * a + 2 * t * (1 - t) * b + t ^ 2 * c

/-- Coordinate `i` of the exact curve with the given (floating-point) control points. -/
noncomputable def QuadraticBezier.exact (q : QuadraticBezier (PointN (Fl F) n)) (i : Fin n)
    (s : ℝ) : ℝ :=
  bern2 s (q.start.coords i).toReal (q.ctrl.coords i).toReal (q.end_.coords i).toReal

/-- Coordinate `i` of the exact curve with the given (floating-point) control points. -/
noncomputable def CubicBezier.exact (c : CubicBezier (PointN (Fl F) n)) (i : Fin n)
    (s : ℝ) : ℝ :=
  bern3 s (c.start.coords i).toReal (c.ctrl1.coords i).toReal (c.ctrl2.coords i).toReal
    (c.end_.coords i).toReal

/-- Coordinate `i` of the exact curve with the given (floating-point) control points. -/
noncomputable def Bezier.exact {N : ℕ} (b : Bezier (PointN (Fl F) n) N) (i : Fin n) (s : ℝ) : ℝ :=
  ∑ k : Fin N, bernstein (N - 1) k s * ((b.control_points k).coords i).toReal

theorem bern2_perturb {t a b c a' b' c' e : ℝ} (t0 : 0 ≤ t) (t1 : t ≤ 1) (ha : |a - a'| ≤ e)
    (hb : |b - b'| ≤ e) (hc : |c - c'| ≤ e) : |bern2 t a b c - bern2 t a' b' c'| ≤ e := by
  rw [abs_le] at *
  have o0 : 0 ≤ 1 - t := by linarith
  have w0 : 0 ≤ (1 - t) ^ 2 := by positivity
  have w1 : 0 ≤ 2 * t * (1 - t) := by positivity
  have w2 : 0 ≤ t ^ 2 := by positivity
  have hsum : (1 - t) ^ 2 + 2 * t * (1 - t) + t ^ 2 = 1 := by ring
  unfold bern2
  generalize (1 - t) ^ 2 = A at *
  generalize 2 * t * (1 - t) = B at *
  generalize t ^ 2 = C at *
  have l1 := mul_le_mul_of_nonneg_left ha.1 w0
  have l2 := mul_le_mul_of_nonneg_left hb.1 w1
  have l3 := mul_le_mul_of_nonneg_left hc.1 w2
  have r1 := mul_le_mul_of_nonneg_left ha.2 w0
  have r2 := mul_le_mul_of_nonneg_left hb.2 w1
  have r3 := mul_le_mul_of_nonneg_left hc.2 w2
  have es : e = A * e + B * e + C * e := by rw [← add_mul, ← add_mul, hsum, one_mul]
  constructor <;> linarith

/-- From a small error and a bounded exact value to a bounded float. -/
theorem bounded_of_error {x : Fl F} {v M e : ℝ} (h : |x.toReal - v| ≤ e) (hv : |v| ≤ M) :
    |x.toReal| ≤ M + e := by
  have := abs_add_le v (x.toReal - v)
  rw [add_sub_cancel] at this
  linarith

/-! ### One split -/

/-- **C86**, `QuadraticBezier::split`: the control points of both halves are finite and the halves
are the two parts of the exact curve up to `13uM + 9η`. -/
theorem C86_quadratic (q : QuadraticBezier (PointN (Fl F) n)) {t M : ℝ}
    (ht : t ∈ F.grid ∧ |t| ≤ F.max) (t0 : 0 ≤ t) (t1 : t ≤ 1)
    (hu : F.u ≤ 1 / 1024) (he : F.eta ≤ 1 / 1024)
    (hs : BoundedBy M q.start) (hc : BoundedBy M q.ctrl) (hd : BoundedBy M q.end_)
    (hmax : 3 * M + 2 ≤ F.max) :
    let l := (q.split (fin t ht)).1
    let r := (q.split (fin t ht)).2
    (∀ p ∈ [l.start, l.ctrl, l.end_, r.start, r.ctrl, r.end_],
      BoundedBy (M + (13 * F.u * M + 9 * F.eta)) p) ∧
    ∀ i s, 0 ≤ s → s ≤ 1 →
      |l.exact i s - q.exact i (t * s)| ≤ 13 * F.u * M + 9 * F.eta ∧
      |r.exact i s - q.exact i (t + (1 - t) * s)| ≤ 13 * F.u * M + 9 * F.eta := by
  intro l r
  have key : ∀ i, 0 ≤ F.u * M ∧
      (((l.ctrl.coords i).IsFinite ∧ |(l.ctrl.coords i).toReal
        - ((1 - t) * (q.start.coords i).toReal + t * (q.ctrl.coords i).toReal)|
          ≤ 6 * F.u * M + 4 * F.eta) ∧
      ((r.ctrl.coords i).IsFinite ∧ |(r.ctrl.coords i).toReal
        - ((1 - t) * (q.ctrl.coords i).toReal + t * (q.end_.coords i).toReal)|
          ≤ 6 * F.u * M + 4 * F.eta) ∧
      ((l.end_.coords i).IsFinite ∧ |(l.end_.coords i).toReal
        - ((1 - t) ^ 2 * (q.start.coords i).toReal + 2 * t * (1 - t) * (q.ctrl.coords i).toReal
          + t ^ 2 * (q.end_.coords i).toReal)| ≤ 13 * F.u * M + 9 * F.eta)) := by
    intro i
    have hM : 0 ≤ M := (abs_nonneg _).trans (hs i).2
    exact ⟨mul_nonneg F.u_nonneg hM,
      C67_line_eval ⟨q.start, q.ctrl⟩ ht t0 t1 hu he hs hc (by linarith) i,
      C67_line_eval ⟨q.ctrl, q.end_⟩ ht t0 t1 hu he hc hd (by linarith) i,
      C67_quadratic_casteljau q ht t0 t1 hu he hs hc hd hmax i⟩
  have e0 := F.eta_nonneg
  constructor
  · have m1 : ∀ i, 0 ≤ 13 * F.u * M + 9 * F.eta := fun i => by
      have := (key i).1; linarith
    have k0 : BoundedBy (M + (13 * F.u * M + 9 * F.eta)) q.start := fun i =>
      ⟨(hs i).1, (hs i).2.trans (by linarith [m1 i])⟩
    have k1 : BoundedBy (M + (13 * F.u * M + 9 * F.eta)) q.end_ := fun i =>
      ⟨(hd i).1, (hd i).2.trans (by linarith [m1 i])⟩
    have k2 : BoundedBy (M + (13 * F.u * M + 9 * F.eta)) l.ctrl := fun i =>
      ⟨(key i).2.1.1, (bounded_of_error (key i).2.1.2
        (abs_lerp_le t0 t1 (hs i).2 (hc i).2)).trans (by linarith [(key i).1])⟩
    have k3 : BoundedBy (M + (13 * F.u * M + 9 * F.eta)) r.ctrl := fun i =>
      ⟨(key i).2.2.1.1, (bounded_of_error (key i).2.2.1.2
        (abs_lerp_le t0 t1 (hc i).2 (hd i).2)).trans (by linarith [(key i).1])⟩
    have k4 : BoundedBy (M + (13 * F.u * M + 9 * F.eta)) l.end_ := fun i =>
      ⟨(key i).2.2.2.1, bounded_of_error (key i).2.2.2.2 (by
        have := abs_lerp_le t0 t1 (abs_lerp_le t0 t1 (hs i).2 (hc i).2)
          (abs_lerp_le t0 t1 (hc i).2 (hd i).2)
        convert this using 2
        ring)⟩
    intro p hp
    simp only [List.mem_cons, List.not_mem_nil, or_false] at hp
    rcases hp with rfl | rfl | rfl | rfl | rfl | rfl
    · exact k0
    · exact k2
    · exact k4
    · exact k4
    · exact k3
    · exact k1
  · intro i s s0 s1
    obtain ⟨uM, ⟨_, d1⟩, ⟨_, d2⟩, _, d3⟩ := key i
    constructor
    · have e1 : q.exact i (t * s) = bern2 s (q.start.coords i).toReal
          ((1 - t) * (q.start.coords i).toReal + t * (q.ctrl.coords i).toReal)
          ((1 - t) ^ 2 * (q.start.coords i).toReal + 2 * t * (1 - t) * (q.ctrl.coords i).toReal
          + t ^ 2 * (q.end_.coords i).toReal) := by
        unfold QuadraticBezier.exact bern2; ring
      rw [e1]
      refine bern2_perturb s0 s1 ?_ (d1.trans (by linarith)) d3
      show |(q.start.coords i).toReal - _| ≤ _
      rw [sub_self, abs_zero]; linarith
    · have e1 : q.exact i (t + (1 - t) * s) = bern2 s
          ((1 - t) ^ 2 * (q.start.coords i).toReal + 2 * t * (1 - t) * (q.ctrl.coords i).toReal
          + t ^ 2 * (q.end_.coords i).toReal)
          ((1 - t) * (q.ctrl.coords i).toReal + t * (q.end_.coords i).toReal)
          (q.end_.coords i).toReal := by
        unfold QuadraticBezier.exact bern2; ring
      rw [e1]
      refine bern2_perturb s0 s1 d3 (d2.trans (by linarith)) ?_
      show |(q.end_.coords i).toReal - _| ≤ _
      rw [sub_self, abs_zero]; linarith

/-- **C86**, `CubicBezier::split`: the control points of both halves are finite and the halves
are the two parts of the exact curve up to `20uM + 14η`. -/
theorem C86_cubic (c : CubicBezier (PointN (Fl F) n)) {t M : ℝ}
    (ht : t ∈ F.grid ∧ |t| ≤ F.max) (t0 : 0 ≤ t) (t1 : t ≤ 1)
    (hu : F.u ≤ 1 / 1024) (he : F.eta ≤ 1 / 1024)
    (hs : BoundedBy M c.start) (hc : BoundedBy M c.ctrl1) (hc' : BoundedBy M c.ctrl2)
    (hd : BoundedBy M c.end_) (hmax : 3 * M + 2 ≤ F.max) :
    let l := (c.split (fin t ht)).1
    let r := (c.split (fin t ht)).2
    (∀ p ∈ [l.start, l.ctrl1, l.ctrl2, l.end_, r.start, r.ctrl1, r.ctrl2, r.end_],
      BoundedBy (M + (20 * F.u * M + 14 * F.eta)) p) ∧
    ∀ i s, 0 ≤ s → s ≤ 1 →
      |l.exact i s - c.exact i (t * s)| ≤ 20 * F.u * M + 14 * F.eta ∧
      |r.exact i s - c.exact i (t + (1 - t) * s)| ≤ 20 * F.u * M + 14 * F.eta := by
  intro l r
  have e0 := F.eta_nonneg
  have q1 := C86_quadratic ⟨c.start, c.ctrl1, c.ctrl2⟩ ht t0 t1 hu he hs hc hc' hmax
  have q2 := C86_quadratic ⟨c.ctrl1, c.ctrl2, c.end_⟩ ht t0 t1 hu he hc hc' hd hmax
  have k3 := fun i => C67_cubic_casteljau c ht t0 t1 hu he hs hc hc' hd hmax i
  have uM : ∀ i, 0 ≤ F.u * M := fun i =>
    mul_nonneg F.u_nonneg ((abs_nonneg _).trans (hs i).2)
  have weak : ∀ {p : PointN (Fl F) n} {a b : ℝ}, a ≤ 20 → b ≤ 14 →
      BoundedBy (M + (a * F.u * M + b * F.eta)) p →
      BoundedBy (M + (20 * F.u * M + 14 * F.eta)) p := by
    intro p a b ha hb h i
    refine ⟨(h i).1, (h i).2.trans ?_⟩
    have h1 := mul_le_mul_of_nonneg_right ha (uM i)
    have h2 := mul_le_mul_of_nonneg_right hb e0
    linarith
  constructor
  · have b3 : BoundedBy (M + (20 * F.u * M + 14 * F.eta)) l.end_ := fun i =>
      ⟨(k3 i).1, bounded_of_error (k3 i).2 (by
        have m1 := abs_lerp_le t0 t1 (hs i).2 (hc i).2
        have m2 := abs_lerp_le t0 t1 (hc i).2 (hc' i).2
        have m3 := abs_lerp_le t0 t1 (hc' i).2 (hd i).2
        have := abs_lerp_le t0 t1 (abs_lerp_le t0 t1 m1 m2) (abs_lerp_le t0 t1 m2 m3)
        convert this using 2
        ring)⟩
    have z : ∀ {p : PointN (Fl F) n}, BoundedBy M p →
        BoundedBy (M + (20 * F.u * M + 14 * F.eta)) p := fun h =>
      weak (a := 0) (b := 0) (by norm_num) (by norm_num) (by simpa using h)
    intro p hp
    simp only [List.mem_cons, List.not_mem_nil, or_false] at hp
    rcases hp with rfl | rfl | rfl | rfl | rfl | rfl | rfl | rfl
    · exact z hs
    · exact weak (by norm_num) (by norm_num) (q1.1 _ (by simp [l, CubicBezier.split, QuadraticBezier.split]))
    · exact weak (by norm_num) (by norm_num) (q1.1 _ (by simp [l, CubicBezier.split, QuadraticBezier.split]))
    · exact b3
    · exact b3
    · exact weak (by norm_num) (by norm_num) (q2.1 _ (by simp [r, CubicBezier.split, QuadraticBezier.split]))
    · exact weak (by norm_num) (by norm_num) (q2.1 _ (by simp [r, CubicBezier.split, QuadraticBezier.split]))
    · exact z hd
  · intro i s s0 s1
    have hM := uM i
    have l1 := (C67_line_eval ⟨c.start, c.ctrl1⟩ ht t0 t1 hu he hs hc (by
      have : 0 ≤ M := (abs_nonneg _).trans (hs i).2
      linarith) i).2
    have l3 := (C67_line_eval ⟨c.ctrl2, c.end_⟩ ht t0 t1 hu he hc' hd (by
      have : 0 ≤ M := (abs_nonneg _).trans (hs i).2
      linarith) i).2
    have p1 := (C67_quadratic_casteljau ⟨c.start, c.ctrl1, c.ctrl2⟩ ht t0 t1 hu he hs hc hc'
      hmax i).2
    have p2 := (C67_quadratic_casteljau ⟨c.ctrl1, c.ctrl2, c.end_⟩ ht t0 t1 hu he hc hc' hd
      hmax i).2
    have c3 := (k3 i).2
    constructor
    · have e1 : c.exact i (t * s) = bern3 s (c.start.coords i).toReal
          ((1 - t) * (c.start.coords i).toReal + t * (c.ctrl1.coords i).toReal)
          ((1 - t) ^ 2 * (c.start.coords i).toReal + 2 * t * (1 - t) * (c.ctrl1.coords i).toReal
          + t ^ 2 * (c.ctrl2.coords i).toReal)
          ((1 - t) ^ 3 * (c.start.coords i).toReal
            + 3 * t * (1 - t) ^ 2 * (c.ctrl1.coords i).toReal
            + 3 * t ^ 2 * (1 - t) * (c.ctrl2.coords i).toReal
            + t ^ 3 * (c.end_.coords i).toReal) := by
        unfold CubicBezier.exact bern3; ring
      rw [e1]
      refine bern3_perturb s0 s1 ?_ (l1.trans (by linarith)) (p1.trans (by linarith)) c3
      show |(c.start.coords i).toReal - _| ≤ _
      rw [sub_self, abs_zero]; linarith
    · have e1 : c.exact i (t + (1 - t) * s) = bern3 s
          ((1 - t) ^ 3 * (c.start.coords i).toReal
            + 3 * t * (1 - t) ^ 2 * (c.ctrl1.coords i).toReal
            + 3 * t ^ 2 * (1 - t) * (c.ctrl2.coords i).toReal
            + t ^ 3 * (c.end_.coords i).toReal)
          ((1 - t) ^ 2 * (c.ctrl1.coords i).toReal + 2 * t * (1 - t) * (c.ctrl2.coords i).toReal
          + t ^ 2 * (c.end_.coords i).toReal)
          ((1 - t) * (c.ctrl2.coords i).toReal + t * (c.end_.coords i).toReal)
          (c.end_.coords i).toReal := by
        unfold CubicBezier.exact bern3; ring
      rw [e1]
      refine bern3_perturb s0 s1 c3 (p2.trans (by linarith)) (l3.trans (by linarith)) ?_
      show |(c.end_.coords i).toReal - _| ≤ _
      rw [sub_self, abs_zero]; linarith

/-- Perturbing the coefficients of a Bernstein sum. -/
theorem bsum_perturb {m : ℕ} {x y : ℕ → ℝ} {s e : ℝ} (s0 : 0 ≤ s) (s1 : s ≤ 1)
    (h : ∀ k ≤ m, |x k - y k| ≤ e) : |bsum m x s - bsum m y s| ≤ e := by
  unfold bsum
  rw [← Finset.sum_sub_distrib]
  calc |∑ k ∈ Finset.range (m + 1), (bernstein m k s * x k - bernstein m k s * y k)|
      ≤ ∑ k ∈ Finset.range (m + 1), |bernstein m k s * x k - bernstein m k s * y k| :=
        Finset.abs_sum_le_sum_abs _ _
    _ ≤ ∑ k ∈ Finset.range (m + 1), bernstein m k s * e := by
        apply Finset.sum_le_sum
        intro k hk
        rw [← mul_sub, abs_mul, abs_of_nonneg (bernstein_nonneg s0 s1)]
        exact mul_le_mul_of_nonneg_left (h k (by simpa [Nat.lt_succ_iff] using hk))
          (bernstein_nonneg s0 s1)
    _ = e := by rw [← Finset.sum_mul, bernstein_sum, one_mul]

theorem exact_eq_bsum {N : ℕ} (hN : 1 ≤ N) (b : Bezier (PointN (Fl F) n) N) (i : Fin n) (s : ℝ)
    {x : ℕ → ℝ} (hx : ∀ k : Fin N, x k = ((b.control_points k).coords i).toReal) :
    b.exact i s = bsum (N - 1) x s := by
  unfold Bezier.exact bsum
  rw [show N - 1 + 1 = N by omega, ← Fin.sum_univ_eq_sum_range (fun k => bernstein (N - 1) k s * x k)]
  apply Finset.sum_congr rfl
  intro k _
  rw [hx]

/-- **C86**, `Bezier::split`: no panic, finite control points, and both halves trace the parts of
the exact curve up to the error bound of `eval` (C62). -/
theorem C86_bezier {N : ℕ} (hN : 1 ≤ N) (b : Bezier (PointN (Fl F) n) N) {t M : ℝ}
    (ht : t ∈ F.grid ∧ |t| ≤ F.max) (t0 : 0 ≤ t) (t1 : t ≤ 1)
    (hb : ∀ k, BoundedBy M (b.control_points k)) (hM0 : 0 ≤ M)
    (hmax : ((1 + F.u) ^ 2 * (1 + F.u + F.eta)) ^ (N - 1)
      * (M + (N - 1 : ℕ) * (3 * (1 + F.u) * F.eta)) ≤ F.max) :
    ∃ l r, b.split (fin t ht) = some (l, r) ∧
      (∀ k, FinitePoint (l.control_points k) ∧ FinitePoint (r.control_points k)) ∧
      ∀ i s, 0 ≤ s → s ≤ 1 →
        |l.exact i s - b.exact i (t * s)| ≤ ((1 + F.u) ^ 2 * (1 + F.u + F.eta)) ^ (N - 1)
            * (M + (N - 1 : ℕ) * (3 * (1 + F.u) * F.eta)) - M ∧
        |r.exact i s - b.exact i (t + (1 - t) * s)| ≤ ((1 + F.u) ^ 2 * (1 + F.u + F.eta)) ^ (N - 1)
            * (M + (N - 1 : ℕ) * (3 * (1 + F.u) * F.eta)) - M := by
  have hmax' : casBound F M (N - 1) ≤ F.max := hmax
  have fin1 : ∀ i k, ((extend b.control_points k).coords i).IsFinite := by
    intro i k
    unfold extend
    split_ifs with hk
    · exact (hb _ i).1
    · exact isFinite_zero
  have bnd1 : ∀ i k, |((extend b.control_points k).coords i).toReal| ≤ M := by
    intro i k
    unfold extend
    split_ifs with hk
    · exact (hb _ i).2
    · show |(lit 0 : Fl F).toReal| ≤ M
      rw [lit_zero, toReal_fin, abs_zero]
      exact hM0
  have main : ∀ i m j, m ≤ N - 1 →
      ((cas (extend b.control_points) (fin t ht) m j).coords i).IsFinite ∧
      |((cas (extend b.control_points) (fin t ht) m j).coords i).toReal
        - bsum m (fun k => ((extend b.control_points (j + k)).coords i).toReal) t|
        ≤ casBound F M (N - 1) - M := by
    intro i m j hm
    have hmono := casBound_mono (F := F) hM0 hm
    obtain ⟨r, hr, er, dr⟩ := cas_error _ ht t0 t1 i (fin1 i) (bnd1 i) m (hmono.trans hmax') j
    rw [er]
    exact ⟨trivial, dr.trans (by linarith)⟩
  refine ⟨_, _, bezier_split_cas b _, fun k => ⟨fun i => (main i k 0 (by omega)).1,
    fun i => (main i (N - 1 - k) k (by omega)).1⟩, fun i s s0 s1 => ⟨?_, ?_⟩⟩
  · rw [exact_eq_bsum hN b i (t * s)
        (x := fun k => ((extend b.control_points k).coords i).toReal)
        (fun k => by rw [extend_lt _ k.isLt]), ← bsum_left,
      exact_eq_bsum hN _ i s
        (x := fun k => ((cas (extend b.control_points) (fin t ht) k 0).coords i).toReal)
        (fun k => rfl)]
    apply bsum_perturb s0 s1
    intro k hk
    have := (main i k 0 hk).2
    simp only [Nat.zero_add] at this
    exact this
  · rw [exact_eq_bsum hN b i (t + (1 - t) * s)
        (x := fun k => ((extend b.control_points k).coords i).toReal)
        (fun k => by rw [extend_lt _ k.isLt]), ← bsum_right,
      exact_eq_bsum hN _ i s
        (x := fun k => ((cas (extend b.control_points) (fin t ht) (N - 1 - k) k).coords i).toReal)
        (fun k => rfl)]
    apply bsum_perturb s0 s1
    intro k hk
    exact (main i (N - 1 - k) k (by omega)).2

/-! ### Repeated subdivision -/

/-- Follow a path of splits: at each step split at the given parameter and keep the left
(`false`) or right (`true`) half. -/
noncomputable def CubicBezier.descend (c : CubicBezier (PointN (Fl F) n)) :
    List (Fl F × Bool) → CubicBezier (PointN (Fl F) n)
  | [] => c
  | (t, right) :: path => (if right then (c.split t).2 else (c.split t).1).descend path

/-- Follow a path of splits. -/
noncomputable def QuadraticBezier.descend (c : QuadraticBezier (PointN (Fl F) n)) :
    List (Fl F × Bool) → QuadraticBezier (PointN (Fl F) n)
  | [] => c
  | (t, right) :: path => (if right then (c.split t).2 else (c.split t).1).descend path

/-- The parameter of the original curve which corresponds to the parameter `s` of the piece. -/
noncomputable def pathParam : List (Fl F × Bool) → ℝ → ℝ
  | [], s => s
  | (t, right) :: path, s =>
    if right then t.toReal + (1 - t.toReal) * pathParam path s else t.toReal * pathParam path s

/-- All parameters of the path are floats in [0, 1]. -/
def PathOk (path : List (Fl F × Bool)) : Prop :=
  ∀ x ∈ path, x.1.IsFinite ∧ 0 ≤ x.1.toReal ∧ x.1.toReal ≤ 1

theorem pathParam_mem {path : List (Fl F × Bool)} (h : PathOk path) {s : ℝ} (s0 : 0 ≤ s)
    (s1 : s ≤ 1) : 0 ≤ pathParam path s ∧ pathParam path s ≤ 1 := by
  induction path with
  | nil => exact ⟨s0, s1⟩
  | cons x path ih =>
    obtain ⟨t, right⟩ := x
    obtain ⟨i0, i1⟩ := ih (fun y hy => h y (List.mem_cons_of_mem _ hy))
    obtain ⟨_, t0, t1⟩ := h _ List.mem_cons_self
    simp only at t0 t1
    simp only [pathParam]
    have p0 := mul_nonneg t0 i0
    have p1 := mul_nonneg (sub_nonneg.2 t1) (sub_nonneg.2 i1)
    have p2 := mul_nonneg (sub_nonneg.2 t1) i0
    have p3 := mul_nonneg t0 (sub_nonneg.2 i1)
    split_ifs <;> constructor <;> linarith

theorem cubic_descend_aux {B : ℝ} (hu : F.u ≤ 1 / 1024) (he : F.eta ≤ 1 / 1024) (hB : 0 ≤ B)
    (hmax : 3 * B + 2 ≤ F.max) (path : List (Fl F × Bool)) (hp : PathOk path) :
    ∀ (c : CubicBezier (PointN (Fl F) n)) (A : ℝ),
      BoundedBy A c.start → BoundedBy A c.ctrl1 → BoundedBy A c.ctrl2 → BoundedBy A c.end_ →
      A + path.length * (20 * F.u * B + 14 * F.eta) ≤ B →
      (BoundedBy B (c.descend path).start ∧ BoundedBy B (c.descend path).ctrl1 ∧
        BoundedBy B (c.descend path).ctrl2 ∧ BoundedBy B (c.descend path).end_) ∧
      ∀ i s, 0 ≤ s → s ≤ 1 → |(c.descend path).exact i s - c.exact i (pathParam path s)|
        ≤ path.length * (20 * F.u * B + 14 * F.eta) := by
  have e0 := F.eta_nonneg
  have uB : 0 ≤ F.u * B := mul_nonneg F.u_nonneg hB
  induction path with
  | nil =>
    intro c A h1 h2 h3 h4 hA
    simp only [List.length_nil, Nat.cast_zero, zero_mul, add_zero] at hA
    have w : ∀ {p : PointN (Fl F) n}, BoundedBy A p → BoundedBy B p := fun h i =>
      ⟨(h i).1, (h i).2.trans hA⟩
    refine ⟨⟨w h1, w h2, w h3, w h4⟩, fun i s _ _ => ?_⟩
    simp [CubicBezier.descend, pathParam]
  | cons x path ih =>
    obtain ⟨t, right⟩ := x
    intro c A h1 h2 h3 h4 hA
    have hp' : PathOk path := fun y hy => hp y (List.mem_cons_of_mem _ hy)
    obtain ⟨tf, t0, t1⟩ := hp _ List.mem_cons_self
    obtain ⟨τ, hτ, rfl⟩ := isFinite_iff.1 tf
    simp only [toReal_fin] at t0 t1
    rw [List.length_cons] at hA ⊢
    push_cast at hA ⊢
    set E := 20 * F.u * B + 14 * F.eta with hE
    have E0 : 0 ≤ E := by rw [hE]; linarith
    have l0 : 0 ≤ (path.length : ℝ) * E := by positivity
    have hAB : A ≤ B := by linarith
    have uAB : F.u * A ≤ F.u * B := mul_le_mul_of_nonneg_left hAB F.u_nonneg
    have one := C86_cubic c hτ t0 t1 hu he h1 h2 h3 h4 (by linarith)
    obtain ⟨bd, er⟩ := one
    have w : ∀ {p : PointN (Fl F) n}, BoundedBy (A + (20 * F.u * A + 14 * F.eta)) p →
        BoundedBy (A + E) p := fun h i => ⟨(h i).1, (h i).2.trans (by rw [hE]; linarith)⟩
    have fin1 : ∀ a b c d : ℝ, |a - b| ≤ path.length * E → |b - c| ≤ E → d = c →
        |a - d| ≤ (path.length + 1) * E := by
      intro a b c d k1 k2 k3
      have := abs_add_le (a - b) (b - c)
      rw [sub_add_sub_cancel] at this
      rw [k3]; linarith
    cases right with
    | false =>
      obtain ⟨r1, r2⟩ := ih hp' (c.split (fin τ hτ)).1 (A + E)
        (w (bd _ (by simp))) (w (bd _ (by simp))) (w (bd _ (by simp))) (w (bd _ (by simp)))
        (by linarith)
      refine ⟨r1, fun i s s0 s1 => ?_⟩
      obtain ⟨p0, p1⟩ := pathParam_mem hp' s0 s1
      exact fin1 _ _ _ _ (r2 i s s0 s1) ((er i _ p0 p1).1.trans (by rw [hE]; linarith)) rfl
    | true =>
      obtain ⟨r1, r2⟩ := ih hp' (c.split (fin τ hτ)).2 (A + E)
        (w (bd _ (by simp))) (w (bd _ (by simp))) (w (bd _ (by simp))) (w (bd _ (by simp)))
        (by linarith)
      refine ⟨r1, fun i s s0 s1 => ?_⟩
      obtain ⟨p0, p1⟩ := pathParam_mem hp' s0 s1
      exact fin1 _ _ _ _ (r2 i s s0 s1) ((er i _ p0 p1).2.trans (by rw [hE]; linarith)) rfl

theorem quadratic_descend_aux {B : ℝ} (hu : F.u ≤ 1 / 1024) (he : F.eta ≤ 1 / 1024) (hB : 0 ≤ B)
    (hmax : 3 * B + 2 ≤ F.max) (path : List (Fl F × Bool)) (hp : PathOk path) :
    ∀ (c : QuadraticBezier (PointN (Fl F) n)) (A : ℝ),
      BoundedBy A c.start → BoundedBy A c.ctrl → BoundedBy A c.end_ →
      A + path.length * (13 * F.u * B + 9 * F.eta) ≤ B →
      (BoundedBy B (c.descend path).start ∧ BoundedBy B (c.descend path).ctrl ∧
        BoundedBy B (c.descend path).end_) ∧
      ∀ i s, 0 ≤ s → s ≤ 1 → |(c.descend path).exact i s - c.exact i (pathParam path s)|
        ≤ path.length * (13 * F.u * B + 9 * F.eta) := by
  have e0 := F.eta_nonneg
  have uB : 0 ≤ F.u * B := mul_nonneg F.u_nonneg hB
  induction path with
  | nil =>
    intro c A h1 h2 h4 hA
    simp only [List.length_nil, Nat.cast_zero, zero_mul, add_zero] at hA
    have w : ∀ {p : PointN (Fl F) n}, BoundedBy A p → BoundedBy B p := fun h i =>
      ⟨(h i).1, (h i).2.trans hA⟩
    refine ⟨⟨w h1, w h2, w h4⟩, fun i s _ _ => ?_⟩
    simp [QuadraticBezier.descend, pathParam]
  | cons x path ih =>
    obtain ⟨t, right⟩ := x
    intro c A h1 h2 h4 hA
    have hp' : PathOk path := fun y hy => hp y (List.mem_cons_of_mem _ hy)
    obtain ⟨tf, t0, t1⟩ := hp _ List.mem_cons_self
    obtain ⟨τ, hτ, rfl⟩ := isFinite_iff.1 tf
    simp only [toReal_fin] at t0 t1
    rw [List.length_cons] at hA ⊢
    push_cast at hA ⊢
    set E := 13 * F.u * B + 9 * F.eta with hE
    have E0 : 0 ≤ E := by rw [hE]; linarith
    have l0 : 0 ≤ (path.length : ℝ) * E := by positivity
    have hAB : A ≤ B := by linarith
    have uAB : F.u * A ≤ F.u * B := mul_le_mul_of_nonneg_left hAB F.u_nonneg
    have one := C86_quadratic c hτ t0 t1 hu he h1 h2 h4 (by linarith)
    obtain ⟨bd, er⟩ := one
    have w : ∀ {p : PointN (Fl F) n}, BoundedBy (A + (13 * F.u * A + 9 * F.eta)) p →
        BoundedBy (A + E) p := fun h i => ⟨(h i).1, (h i).2.trans (by rw [hE]; linarith)⟩
    have fin1 : ∀ a b c d : ℝ, |a - b| ≤ path.length * E → |b - c| ≤ E → d = c →
        |a - d| ≤ (path.length + 1) * E := by
      intro a b c d k1 k2 k3
      have := abs_add_le (a - b) (b - c)
      rw [sub_add_sub_cancel] at this
      rw [k3]; linarith
    cases right with
    | false =>
      obtain ⟨r1, r2⟩ := ih hp' (c.split (fin τ hτ)).1 (A + E)
        (w (bd _ (by simp))) (w (bd _ (by simp))) (w (bd _ (by simp)))
        (by linarith)
      refine ⟨r1, fun i s s0 s1 => ?_⟩
      obtain ⟨p0, p1⟩ := pathParam_mem hp' s0 s1
      exact fin1 _ _ _ _ (r2 i s s0 s1) ((er i _ p0 p1).1.trans (by rw [hE]; linarith)) rfl
    | true =>
      obtain ⟨r1, r2⟩ := ih hp' (c.split (fin τ hτ)).2 (A + E)
        (w (bd _ (by simp))) (w (bd _ (by simp))) (w (bd _ (by simp)))
        (by linarith)
      refine ⟨r1, fun i s s0 s1 => ?_⟩
      obtain ⟨p0, p1⟩ := pathParam_mem hp' s0 s1
      exact fin1 _ _ _ _ (r2 i s s0 s1) ((er i _ p0 p1).2.trans (by rw [hE]; linarith)) rfl

/-- **C86**, any number of subdivisions of a cubic curve at arbitrary floats in [0, 1]: the piece
reached is the corresponding piece of the original exact curve up to the number of subdivisions
times `20u(M+1) + 14η`, as long as this total stays below 1. -/
theorem C86_cubic_descend (c : CubicBezier (PointN (Fl F) n)) {M : ℝ} (hM : 0 ≤ M)
    (hu : F.u ≤ 1 / 1024) (he : F.eta ≤ 1 / 1024)
    (hs : BoundedBy M c.start) (hc : BoundedBy M c.ctrl1) (hc' : BoundedBy M c.ctrl2)
    (hd : BoundedBy M c.end_) (hmax : 3 * (M + 1) + 2 ≤ F.max)
    (path : List (Fl F × Bool)) (hp : PathOk path)
    (hlen : path.length * (20 * F.u * (M + 1) + 14 * F.eta) ≤ 1) {i : Fin n} {s : ℝ}
    (s0 : 0 ≤ s) (s1 : s ≤ 1) :
    |(c.descend path).exact i s - c.exact i (pathParam path s)|
      ≤ path.length * (20 * F.u * (M + 1) + 14 * F.eta) :=
  (cubic_descend_aux hu he (by linarith) hmax path hp c M hs hc hc' hd (by linarith)).2 i s s0 s1

/-- **C86**, any number of subdivisions of a quadratic curve. -/
theorem C86_quadratic_descend (c : QuadraticBezier (PointN (Fl F) n)) {M : ℝ} (hM : 0 ≤ M)
    (hu : F.u ≤ 1 / 1024) (he : F.eta ≤ 1 / 1024)
    (hs : BoundedBy M c.start) (hc : BoundedBy M c.ctrl)
    (hd : BoundedBy M c.end_) (hmax : 3 * (M + 1) + 2 ≤ F.max)
    (path : List (Fl F × Bool)) (hp : PathOk path)
    (hlen : path.length * (13 * F.u * (M + 1) + 9 * F.eta) ≤ 1) {i : Fin n} {s : ℝ}
    (s0 : 0 ≤ s) (s1 : s ≤ 1) :
    |(c.descend path).exact i s - c.exact i (pathParam path s)|
      ≤ path.length * (13 * F.u * (M + 1) + 9 * F.eta) :=
  (quadratic_descend_aux hu he (by linarith) hmax path hp c M hs hc hd (by linarith)).2 i s s0 s1

/-! ### Repeated subdivision of the generic curve -/

/-- One subdivision of the generic curve: the control points of both halves are bounded by the
bound of `C86_bezier`. -/
theorem bezier_split_bounded {N : ℕ} (hN : 1 ≤ N) (b : Bezier (PointN (Fl F) n) N) {t M : ℝ}
    (ht : t ∈ F.grid ∧ |t| ≤ F.max) (t0 : 0 ≤ t) (t1 : t ≤ 1)
    (hb : ∀ k, BoundedBy M (b.control_points k)) (hM0 : 0 ≤ M)
    (hmax : casBound F M (N - 1) ≤ F.max) :
    ∃ l r, b.split (fin t ht) = some (l, r) ∧
      (∀ k, BoundedBy (casBound F M (N - 1)) (l.control_points k) ∧
        BoundedBy (casBound F M (N - 1)) (r.control_points k)) ∧
      ∀ i s, 0 ≤ s → s ≤ 1 →
        |l.exact i s - b.exact i (t * s)| ≤ casBound F M (N - 1) - M ∧
        |r.exact i s - b.exact i (t + (1 - t) * s)| ≤ casBound F M (N - 1) - M := by
  obtain ⟨l, r, hs, -, he⟩ := C86_bezier hN b ht t0 t1 hb hM0 hmax
  refine ⟨l, r, hs, ?_, he⟩
  have fin1 : ∀ i k, ((extend b.control_points k).coords i).IsFinite := by
    intro i k
    unfold extend
    split_ifs with hk
    · exact (hb _ i).1
    · exact isFinite_zero
  have bnd1 : ∀ i k, |((extend b.control_points k).coords i).toReal| ≤ M := by
    intro i k
    unfold extend
    split_ifs with hk
    · exact (hb _ i).2
    · show |(lit 0 : Fl F).toReal| ≤ M
      rw [lit_zero, toReal_fin, abs_zero]
      exact hM0
  have main : ∀ m j, m ≤ N - 1 →
      BoundedBy (casBound F M (N - 1)) (cas (extend b.control_points) (fin t ht) m j) := by
    intro m j hm i
    have hmono := casBound_mono (F := F) hM0 hm
    obtain ⟨r, hr, er, dr⟩ := cas_error _ ht t0 t1 i (fin1 i) (bnd1 i) m (hmono.trans hmax) j
    rw [er]
    have hz := bsum_perturb (m := m) (e := M) t0 t1
      (x := fun k => ((extend b.control_points (j + k)).coords i).toReal) (y := fun _ => 0)
      (fun k _ => by simpa using bnd1 i (j + k))
    have hz' : bsum m (fun _ => (0 : ℝ)) t = 0 := by simp [bsum]
    rw [hz', sub_zero] at hz
    refine ⟨trivial, ?_⟩
    rw [toReal_fin]
    have := abs_add_le (r - bsum m (fun k => ((extend b.control_points (j + k)).coords i).toReal) t)
      (bsum m (fun k => ((extend b.control_points (j + k)).coords i).toReal) t)
    rw [sub_add_cancel] at this
    linarith
  rw [bezier_split_cas] at hs
  obtain ⟨rfl, rfl⟩ := Prod.mk.inj (Option.some.inj hs)
  exact fun k => ⟨main k 0 (by omega), main (N - 1 - k) k (by omega)⟩

/-- Follow a path of splits; `none` if one of the splits panics. -/
noncomputable def Bezier.descend {N : ℕ} (b : Bezier (PointN (Fl F) n) N) :
    List (Fl F × Bool) → Option (Bezier (PointN (Fl F) n) N)
  | [] => some b
  | (t, right) :: path =>
    (b.split t).bind fun lr => (if right then lr.2 else lr.1).descend path

theorem casBound_sub_mono {A B : ℝ} (m : ℕ) (h : A ≤ B) :
    casBound F A m - A ≤ casBound F B m - B := by
  have h1 : 1 ≤ F.growth ^ m := one_le_pow₀ F.one_le_growth
  unfold casBound
  nlinarith [mul_nonneg (sub_nonneg.2 h1) (sub_nonneg.2 h)]

theorem bezier_descend_aux {N : ℕ} (hN : 1 ≤ N) {B : ℝ} (hB : 0 ≤ B)
    (hmax : casBound F B (N - 1) ≤ F.max) (path : List (Fl F × Bool)) (hp : PathOk path) :
    ∀ (b : Bezier (PointN (Fl F) n) N) (A : ℝ), 0 ≤ A →
      (∀ k, BoundedBy A (b.control_points k)) →
      A + path.length * (casBound F B (N - 1) - B) ≤ B →
      ∃ p, b.descend path = some p ∧ (∀ k, BoundedBy B (p.control_points k)) ∧
      ∀ i s, 0 ≤ s → s ≤ 1 → |p.exact i s - b.exact i (pathParam path s)|
        ≤ path.length * (casBound F B (N - 1) - B) := by
  induction path with
  | nil =>
    intro b A hA0 hb hA
    simp only [List.length_nil, Nat.cast_zero, zero_mul, add_zero] at hA
    refine ⟨b, rfl, fun k i => ⟨(hb k i).1, (hb k i).2.trans hA⟩, fun i s _ _ => ?_⟩
    simp [pathParam]
  | cons x path ih =>
    obtain ⟨t, right⟩ := x
    intro b A hA0 hb hA
    have hp' : PathOk path := fun y hy => hp y (List.mem_cons_of_mem _ hy)
    obtain ⟨tf, t0, t1⟩ := hp _ List.mem_cons_self
    obtain ⟨τ, hτ, rfl⟩ := isFinite_iff.1 tf
    simp only [toReal_fin] at t0 t1
    rw [List.length_cons] at hA ⊢
    push_cast at hA ⊢
    have hE0 : ∀ C : ℝ, 0 ≤ C → 0 ≤ casBound F C (N - 1) - C := by
      intro C hC
      have := casBound_mono (F := F) hC (Nat.zero_le (N - 1))
      have h0 : casBound F C 0 = C := by simp [casBound]
      linarith
    set E := casBound F B (N - 1) - B with hE
    have E0 : 0 ≤ E := hE0 B hB
    have l0 : 0 ≤ (path.length : ℝ) * E := mul_nonneg (Nat.cast_nonneg _) E0
    have hAB : A ≤ B := by linarith
    have hEA := casBound_sub_mono (F := F) (N - 1) hAB
    rw [← hE] at hEA
    obtain ⟨l, r, hs, bd, er⟩ := bezier_split_bounded hN b hτ t0 t1 hb hA0 (by linarith)
    have w : ∀ {p : PointN (Fl F) n}, BoundedBy (casBound F A (N - 1)) p →
        BoundedBy (A + E) p := fun h i => ⟨(h i).1, (h i).2.trans (by linarith)⟩
    have fin1 : ∀ a b c d : ℝ, |a - b| ≤ path.length * E → |b - c| ≤ E → d = c →
        |a - d| ≤ (path.length + 1) * E := by
      intro a b c d k1 k2 k3
      have := abs_add_le (a - b) (b - c)
      rw [sub_add_sub_cancel] at this
      rw [k3]; linarith
    cases right with
    | false =>
      obtain ⟨p, hd, r1, r2⟩ := ih hp' l (A + E) (by linarith) (fun k => w (bd k).1) (by linarith)
      refine ⟨p, by simp [Bezier.descend, hs, hd], r1, fun i s s0 s1 => ?_⟩
      obtain ⟨p0, p1⟩ := pathParam_mem hp' s0 s1
      exact fin1 _ _ _ _ (r2 i s s0 s1) ((er i _ p0 p1).1.trans hEA) rfl
    | true =>
      obtain ⟨p, hd, r1, r2⟩ := ih hp' r (A + E) (by linarith) (fun k => w (bd k).2) (by linarith)
      refine ⟨p, by simp [Bezier.descend, hs, hd], r1, fun i s s0 s1 => ?_⟩
      obtain ⟨p0, p1⟩ := pathParam_mem hp' s0 s1
      exact fin1 _ _ _ _ (r2 i s s0 s1) ((er i _ p0 p1).2.trans hEA) rfl

/-- **C86**, any number of subdivisions of the generic curve at arbitrary floats in [0, 1]: no
panic, all control points finite, and the piece reached is the corresponding piece of the original
exact curve up to the number of subdivisions times the error of one subdivision of a curve with
coordinates up to `M + 1`, as long as this total stays below 1. -/
theorem C86_bezier_descend {N : ℕ} (hN : 1 ≤ N) (b : Bezier (PointN (Fl F) n) N) {M E : ℝ}
    (hM : 0 ≤ M) (hb : ∀ k, BoundedBy M (b.control_points k))
    (hE : E = ((1 + F.u) ^ 2 * (1 + F.u + F.eta)) ^ (N - 1)
      * (M + 1 + (N - 1 : ℕ) * (3 * (1 + F.u) * F.eta)) - (M + 1))
    (hmax : M + 1 + E ≤ F.max) (path : List (Fl F × Bool)) (hp : PathOk path)
    (hlen : path.length * E ≤ 1) :
    ∃ p, b.descend path = some p ∧ (∀ k, BoundedBy (M + 1) (p.control_points k)) ∧
      ∀ i s, 0 ≤ s → s ≤ 1 →
        |p.exact i s - b.exact i (pathParam path s)| ≤ path.length * E := by
  have e : E = casBound F (M + 1) (N - 1) - (M + 1) := hE
  rw [e] at hmax hlen ⊢
  exact bezier_descend_aux hN (by linarith) (by linarith) path hp b M hM hb (by linarith)

/-- The hypotheses hold in binary64 for a million subdivisions of a curve with coordinates up to
255, at the parameter 1/2. -/
example (cosI acosI : ℝ → ℝ) (powI : ℝ → ℝ → ℝ) : let F := binary64 cosI acosI powI
    F.u ≤ 1 / 1024 ∧ F.eta ≤ 1 / 1024 ∧ 3 * ((255 : ℝ) + 1) + 2 ≤ F.max ∧
    (1000000 : ℕ) * (20 * F.u * (255 + 1) + 14 * F.eta) ≤ 1 ∧
    ∃ hh : (1 / 2 : ℝ) ∈ F.grid ∧ |(1 / 2 : ℝ)| ≤ F.max,
      PathOk (List.replicate 1000000 ((fin (1 / 2) hh : Fl F), true)) := by
  intro F
  have hu : F.u = 2 ^ (-(53 : ℕ) : ℤ) := rfl
  have he : F.eta ≤ 1 / 10 ^ 30 := by
    show (2 : ℝ) ^ ((-1074 : ℤ) - 1) ≤ _
    calc (2 : ℝ) ^ ((-1074 : ℤ) - 1) ≤ 2 ^ (-100 : ℤ) :=
          zpow_le_zpow_right₀ (by norm_num) (by norm_num)
      _ ≤ _ := by norm_num
  refine ⟨?_, ?_, ?_, ?_, ?_⟩
  · rw [hu]; norm_num
  · exact he.trans (by norm_num)
  · linarith [F.max_ge]
  · have : (1000000 : ℕ) * (20 * F.u * (255 + 1) + 14 * F.eta)
        ≤ (1000000 : ℕ) * (20 * F.u * (255 + 1) + 14 * (1 / 10 ^ 30)) := by
      push_cast
      linarith
    refine this.trans ?_
    rw [hu]; norm_num
  · refine ⟨⟨⟨1, -1, by norm_num, by norm_num, by norm_num⟩, ?_⟩, fun x hx => ?_⟩
    · exact le_trans (by norm_num [abs_of_pos]) F.max_ge
    · rw [List.eq_of_mem_replicate hx]
      simp only [toReal_fin]
      exact ⟨trivial, by norm_num, by norm_num⟩

/-- The hypotheses of `C86_bezier_descend` hold in binary64 for a million subdivisions of a quintic
curve with coordinates up to 255. -/
example (cosI acosI : ℝ → ℝ) (powI : ℝ → ℝ → ℝ) : let F := binary64 cosI acosI powI
    let E := ((1 + F.u) ^ 2 * (1 + F.u + F.eta)) ^ (6 - 1)
      * ((255 : ℝ) + 1 + (6 - 1 : ℕ) * (3 * (1 + F.u) * F.eta)) - (255 + 1)
    (255 : ℝ) + 1 + E ≤ F.max ∧ (1000000 : ℕ) * E ≤ 1 := by
  intro F E
  have hu : F.u = 2 ^ (-(53 : ℕ) : ℤ) := rfl
  have he : F.eta ≤ 1 / 10 ^ 30 := by
    show (2 : ℝ) ^ ((-1074 : ℤ) - 1) ≤ _
    calc (2 : ℝ) ^ ((-1074 : ℤ) - 1) ≤ 2 ^ (-100 : ℤ) :=
          zpow_le_zpow_right₀ (by norm_num) (by norm_num)
      _ ≤ _ := by norm_num
  have e0 := F.eta_nonneg
  have u0 := F.u_nonneg
  have hE : E ≤ 1 / 1000000 := by
    have : E ≤ ((1 + F.u) ^ 2 * (1 + F.u + 1 / 10 ^ 30)) ^ (6 - 1)
      * ((255 : ℝ) + 1 + (6 - 1 : ℕ) * (3 * (1 + F.u) * (1 / 10 ^ 30))) - (255 + 1) := by
      show ((1 + F.u) ^ 2 * (1 + F.u + F.eta)) ^ (6 - 1)
        * ((255 : ℝ) + 1 + (6 - 1 : ℕ) * (3 * (1 + F.u) * F.eta)) - (255 + 1) ≤ _
      gcongr
    refine this.trans ?_
    rw [hu]; norm_num
  refine ⟨?_, ?_⟩
  · have := F.max_ge
    linarith
  · push_cast; linarith

end Stroke
