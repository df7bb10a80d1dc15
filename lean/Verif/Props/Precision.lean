import Verif.Props.FloatContinuity
import Verif.Props.Witnesses
import Verif.Props.FloatExact

/-!
# Single and double precision agree up to rounding (C124)

The library computes in `f64` on 64-bit targets and in `f32` on all others (src/lib.rs:60-72). The
same program run in two formats `F` and `G` on control points and parameters that are nearly the same returns nearly the same
points, and the differences of the inputs are not magnified: the differences of the control points
count once, that of the parameter counts as the speed of the curve.

`convert` is the cast between two formats that a program would use to pass from one to the other.
-/

namespace Stroke

open Fl

/-- The cast from one format to another (`as f32`, `as f64`): NaN and the infinities are kept, a
finite number is rounded to the nearest number of the other format. -/
noncomputable def Fl.convert {F : FloatFormat} (G : FloatFormat) : Fl F → Fl G
  | nan => nan
  | inf s => inf s
  | fin r _ => G.round r

/-- The cast of every coordinate of a point. -/
noncomputable def PointN.convert {F : FloatFormat} {n : ℕ} (G : FloatFormat)
    (p : PointN (Fl F) n) : PointN (Fl G) n := ⟨fun i => (p.coords i).convert G⟩

/-- The coordinates of two points in different formats differ by at most `δ`. -/
def CloseTo {F G : FloatFormat} {n : ℕ} (δ : ℝ) (p : PointN (Fl F) n) (q : PointN (Fl G) n) : Prop :=
  ∀ i, |(p.coords i).toReal - (q.coords i).toReal| ≤ δ

variable {F G : FloatFormat} {n : ℕ}

/-- Bernstein sums with nearby coefficients at nearby parameters. -/
theorem bsum_close {m : ℕ} {x y : ℕ → ℝ} {M δ s t : ℝ} (hs : 0 ≤ s ∧ s ≤ 1) (ht : 0 ≤ t ∧ t ≤ 1)
    (hx : ∀ k ≤ m, |x k| ≤ M) (hxy : ∀ k ≤ m, |x k - y k| ≤ δ) :
    |bsum m x s - bsum m y t| ≤ δ + 2 * m * M * |s - t| := by
  have h1 : |bsum m x t - bsum m y t| ≤ δ := by
    have e : bsum m x t - bsum m y t
        = ∑ k ∈ Finset.range (m + 1), bernstein m k t * (x k - y k) := by
      unfold bsum
      rw [← Finset.sum_sub_distrib]
      exact Finset.sum_congr rfl fun k _ => by ring
    rw [e]
    calc |∑ k ∈ Finset.range (m + 1), bernstein m k t * (x k - y k)|
        ≤ ∑ k ∈ Finset.range (m + 1), |bernstein m k t * (x k - y k)| :=
          Finset.abs_sum_le_sum_abs _ _
      _ ≤ ∑ k ∈ Finset.range (m + 1), bernstein m k t * δ := by
          refine Finset.sum_le_sum fun k hk => ?_
          have hb := bernstein_nonneg (n := m) (k := k) ht.1 ht.2
          rw [abs_mul, abs_of_nonneg hb]
          exact mul_le_mul_of_nonneg_left
            (hxy k (Nat.lt_succ_iff.1 (Finset.mem_range.1 hk))) hb
      _ = δ := by rw [← Finset.sum_mul, bernstein_sum, one_mul]
  have h2 := bsum_lipschitz (m := m) (x := x) (D := 2 * M) (fun k hk => by
    have a := hx k hk.le
    have b := hx (k + 1) hk
    calc |x (k + 1) - x k| ≤ |x (k + 1)| + |x k| := abs_sub _ _
      _ ≤ 2 * M := by linarith) ht hs
  calc |bsum m x s - bsum m y t|
      ≤ |bsum m x s - bsum m x t| + |bsum m x t - bsum m y t| := abs_sub_le _ _ _
    _ ≤ m * (2 * M) * |s - t| + δ := add_le_add h2 h1
    _ = _ := by ring

/-- Two computed coordinates, each near its own Bernstein sum. -/
theorem near_two {a b p q A B E : ℝ} (ha : |p - a| ≤ A) (hb : |q - b| ≤ B) (h : |a - b| ≤ E) :
    |p - q| ≤ E + A + B := by
  rw [abs_le] at *
  constructor <;> linarith [ha.1, ha.2, hb.1, hb.2, h.1, h.2]

theorem line_bsum (x : ℕ → ℝ) (t : ℝ) : (1 - t) * x 0 + t * x 1 = bsum 1 x t := by
  simp only [bsum, bernstein, Finset.sum_range_succ, Finset.range_zero, Finset.sum_empty]
  norm_num [Nat.choose]

/-- **C124**, straight segments. -/
theorem C124_line (l : LineSegment (PointN (Fl F) n)) (l' : LineSegment (PointN (Fl G) n))
    {s t M δ : ℝ} (hs : s ∈ F.grid ∧ |s| ≤ F.max) (ht : t ∈ G.grid ∧ |t| ≤ G.max)
    (s01 : 0 ≤ s ∧ s ≤ 1) (t01 : 0 ≤ t ∧ t ≤ 1)
    (hu : F.u ≤ 1 / 1024) (he : F.eta ≤ 1 / 1024) (hu' : G.u ≤ 1 / 1024) (he' : G.eta ≤ 1 / 1024)
    (h1 : BoundedBy M l.start) (h2 : BoundedBy M l.end_)
    (h1' : BoundedBy M l'.start) (h2' : BoundedBy M l'.end_)
    (c1 : CloseTo δ l.start l'.start) (c2 : CloseTo δ l.end_ l'.end_)
    (hmax : 5 / 2 * M + 1 ≤ F.max) (hmax' : 5 / 2 * M + 1 ≤ G.max) :
    CloseTo (δ + 2 * M * |s - t| + (6 * F.u * M + 4 * F.eta) + (6 * G.u * M + 4 * G.eta))
      (l.eval (fin s hs)) (l'.eval (fin t ht)) := by
  intro i
  have a := (C67_line_eval l hs s01.1 s01.2 hu he h1 h2 hmax i).2
  have b := (C67_line_eval l' ht t01.1 t01.2 hu' he' h1' h2' hmax' i).2
  let x : ℕ → ℝ := fun k => if k = 0 then (l.start.coords i).toReal else (l.end_.coords i).toReal
  let y : ℕ → ℝ := fun k => if k = 0 then (l'.start.coords i).toReal else (l'.end_.coords i).toReal
  have k := bsum_close (m := 1) (x := x) (y := y) (M := M) (δ := δ) s01 t01
    (by intro k hk; interval_cases k; exacts [(h1 i).2, (h2 i).2])
    (by intro k hk; interval_cases k; exacts [c1 i, c2 i])
  rw [← line_bsum, ← line_bsum] at k
  push_cast at k
  rw [mul_one] at k
  exact near_two a b k

/-- **C124**, quadratic curves, both evaluation functions. -/
theorem C124_quadratic (q : QuadraticBezier (PointN (Fl F) n))
    (q' : QuadraticBezier (PointN (Fl G) n))
    {s t M δ : ℝ} (hs : s ∈ F.grid ∧ |s| ≤ F.max) (ht : t ∈ G.grid ∧ |t| ≤ G.max)
    (s01 : 0 ≤ s ∧ s ≤ 1) (t01 : 0 ≤ t ∧ t ≤ 1)
    (hu : F.u ≤ 1 / 1024) (he : F.eta ≤ 1 / 1024) (hu' : G.u ≤ 1 / 1024) (he' : G.eta ≤ 1 / 1024)
    (h1 : BoundedBy M q.start) (h2 : BoundedBy M q.ctrl) (h3 : BoundedBy M q.end_)
    (h1' : BoundedBy M q'.start) (h2' : BoundedBy M q'.ctrl) (h3' : BoundedBy M q'.end_)
    (c1 : CloseTo δ q.start q'.start) (c2 : CloseTo δ q.ctrl q'.ctrl)
    (c3 : CloseTo δ q.end_ q'.end_)
    (hmax : 3 * M + 2 ≤ F.max) (hmax' : 3 * M + 2 ≤ G.max) :
    CloseTo (δ + 4 * M * |s - t| + (((1 + F.u) ^ 6 - 1) * M + (13 * M + 11) * F.eta)
        + (((1 + G.u) ^ 6 - 1) * M + (13 * M + 11) * G.eta))
      (q.eval (fin s hs)) (q'.eval (fin t ht)) ∧
    CloseTo (δ + 4 * M * |s - t| + (13 * F.u * M + 9 * F.eta) + (13 * G.u * M + 9 * G.eta))
      (q.evalCasteljau (fin s hs)) (q'.evalCasteljau (fin t ht)) := by
  have k : ∀ i, |((1 - s) ^ 2 * (q.start.coords i).toReal + 2 * s * (1 - s) * (q.ctrl.coords i).toReal
        + s ^ 2 * (q.end_.coords i).toReal)
      - ((1 - t) ^ 2 * (q'.start.coords i).toReal + 2 * t * (1 - t) * (q'.ctrl.coords i).toReal
        + t ^ 2 * (q'.end_.coords i).toReal)| ≤ δ + 4 * M * |s - t| := by
    intro i
    let x : ℕ → ℝ := fun k => if k = 0 then (q.start.coords i).toReal
      else if k = 1 then (q.ctrl.coords i).toReal else (q.end_.coords i).toReal
    let y : ℕ → ℝ := fun k => if k = 0 then (q'.start.coords i).toReal
      else if k = 1 then (q'.ctrl.coords i).toReal else (q'.end_.coords i).toReal
    have k := bsum_close (m := 2) (x := x) (y := y) (M := M) (δ := δ) s01 t01
      (by intro k hk; interval_cases k; exacts [(h1 i).2, (h2 i).2, (h3 i).2])
      (by intro k hk; interval_cases k; exacts [c1 i, c2 i, c3 i])
    rw [← quad_bsum, ← quad_bsum] at k
    push_cast at k
    rw [show (2 : ℝ) * 2 = 4 by norm_num] at k
    exact k
  exact ⟨fun i => near_two
      (C67_quadratic_eval q hs s01.1 s01.2 hu he h1 h2 h3 (by linarith) i).2
      (C67_quadratic_eval q' ht t01.1 t01.2 hu' he' h1' h2' h3' (by linarith) i).2 (k i),
    fun i => near_two
      (C67_quadratic_casteljau q hs s01.1 s01.2 hu he h1 h2 h3 hmax i).2
      (C67_quadratic_casteljau q' ht t01.1 t01.2 hu' he' h1' h2' h3' hmax' i).2 (k i)⟩

/-- **C124**, cubic curves, both evaluation functions. -/
theorem C124_cubic (c : CubicBezier (PointN (Fl F) n)) (c' : CubicBezier (PointN (Fl G) n))
    {s t M δ : ℝ} (hs : s ∈ F.grid ∧ |s| ≤ F.max) (ht : t ∈ G.grid ∧ |t| ≤ G.max)
    (s01 : 0 ≤ s ∧ s ≤ 1) (t01 : 0 ≤ t ∧ t ≤ 1)
    (hu : F.u ≤ 1 / 1024) (he : F.eta ≤ 1 / 1024) (hu' : G.u ≤ 1 / 1024) (he' : G.eta ≤ 1 / 1024)
    (h1 : BoundedBy M c.start) (h2 : BoundedBy M c.ctrl1) (h3 : BoundedBy M c.ctrl2)
    (h4 : BoundedBy M c.end_)
    (h1' : BoundedBy M c'.start) (h2' : BoundedBy M c'.ctrl1) (h3' : BoundedBy M c'.ctrl2)
    (h4' : BoundedBy M c'.end_)
    (c1 : CloseTo δ c.start c'.start) (c2 : CloseTo δ c.ctrl1 c'.ctrl1)
    (c3 : CloseTo δ c.ctrl2 c'.ctrl2) (c4 : CloseTo δ c.end_ c'.end_)
    (hmax : 4 * M + 2 ≤ F.max) (hmax' : 4 * M + 2 ≤ G.max) :
    CloseTo (δ + 6 * M * |s - t| + (((1 + F.u) ^ 9 - 1) * M + (54 * M + 10) * F.eta)
        + (((1 + G.u) ^ 9 - 1) * M + (54 * M + 10) * G.eta))
      (c.eval (fin s hs)) (c'.eval (fin t ht)) ∧
    CloseTo (δ + 6 * M * |s - t| + (20 * F.u * M + 14 * F.eta) + (20 * G.u * M + 14 * G.eta))
      (c.evalCasteljau (fin s hs)) (c'.evalCasteljau (fin t ht)) := by
  have k : ∀ i, |((1 - s) ^ 3 * (c.start.coords i).toReal
        + 3 * s * (1 - s) ^ 2 * (c.ctrl1.coords i).toReal
        + 3 * s ^ 2 * (1 - s) * (c.ctrl2.coords i).toReal + s ^ 3 * (c.end_.coords i).toReal)
      - ((1 - t) ^ 3 * (c'.start.coords i).toReal
        + 3 * t * (1 - t) ^ 2 * (c'.ctrl1.coords i).toReal
        + 3 * t ^ 2 * (1 - t) * (c'.ctrl2.coords i).toReal + t ^ 3 * (c'.end_.coords i).toReal)|
      ≤ δ + 6 * M * |s - t| := by
    intro i
    let x : ℕ → ℝ := fun k => if k = 0 then (c.start.coords i).toReal
      else if k = 1 then (c.ctrl1.coords i).toReal
      else if k = 2 then (c.ctrl2.coords i).toReal else (c.end_.coords i).toReal
    let y : ℕ → ℝ := fun k => if k = 0 then (c'.start.coords i).toReal
      else if k = 1 then (c'.ctrl1.coords i).toReal
      else if k = 2 then (c'.ctrl2.coords i).toReal else (c'.end_.coords i).toReal
    have k := bsum_close (m := 3) (x := x) (y := y) (M := M) (δ := δ) s01 t01
      (by intro k hk; interval_cases k; exacts [(h1 i).2, (h2 i).2, (h3 i).2, (h4 i).2])
      (by intro k hk; interval_cases k; exacts [c1 i, c2 i, c3 i, c4 i])
    rw [← cubic_bsum, ← cubic_bsum] at k
    push_cast at k
    rw [show (2 : ℝ) * 3 = 6 by norm_num] at k
    exact k
  have M0 : ∀ i : Fin n, 0 ≤ M := fun i => (abs_nonneg _).trans (h1 i).2
  exact ⟨fun i => near_two
      (C67_cubic_eval c hs s01.1 s01.2 hu he h1 h2 h3 h4 (by linarith) i).2
      (C67_cubic_eval c' ht t01.1 t01.2 hu' he' h1' h2' h3' h4' (by linarith) i).2 (k i),
    fun i => near_two
      (C67_cubic_casteljau c hs s01.1 s01.2 hu he h1 h2 h3 h4 (by linarith [M0 i]) i).2
      (C67_cubic_casteljau c' ht t01.1 t01.2 hu' he' h1' h2' h3' h4' (by linarith [M0 i]) i).2
      (k i)⟩

/-- **C124**, generic curves. -/
theorem C124_bezier {N : ℕ} (hN : 1 ≤ N) (b : Bezier (PointN (Fl F) n) N)
    (b' : Bezier (PointN (Fl G) n) N) {s t M δ E E' : ℝ}
    (hs : s ∈ F.grid ∧ |s| ≤ F.max) (ht : t ∈ G.grid ∧ |t| ≤ G.max)
    (s01 : 0 ≤ s ∧ s ≤ 1) (t01 : 0 ≤ t ∧ t ≤ 1) (M0 : 0 ≤ M)
    (hb : ∀ k, BoundedBy M (b.control_points k)) (hb' : ∀ k, BoundedBy M (b'.control_points k))
    (hc : ∀ k, CloseTo δ (b.control_points k) (b'.control_points k))
    (hE : E = ((1 + F.u) ^ 2 * (1 + F.u + F.eta)) ^ (N - 1)
      * (M + (N - 1 : ℕ) * (3 * (1 + F.u) * F.eta)) - M) (hmax : M + E ≤ F.max)
    (hE' : E' = ((1 + G.u) ^ 2 * (1 + G.u + G.eta)) ^ (N - 1)
      * (M + (N - 1 : ℕ) * (3 * (1 + G.u) * G.eta)) - M) (hmax' : M + E' ≤ G.max) :
    ∃ p p', b.eval (fin s hs) = some p ∧ b'.eval (fin t ht) = some p' ∧
      CloseTo (δ + 2 * (N - 1 : ℕ) * M * |s - t| + E + E') p p' := by
  obtain ⟨p, hp, hpi⟩ := C62_bezier_error hN b hs s01.1 s01.2 (fun k i => (hb k i).1)
    (fun k i => (hb k i).2) M0 (by linarith)
  obtain ⟨p', hp', hpi'⟩ := C62_bezier_error hN b' ht t01.1 t01.2 (fun k i => (hb' k i).1)
    (fun k i => (hb' k i).2) M0 (by linarith)
  refine ⟨p, p', hp, hp', fun i => ?_⟩
  have a := (hpi i).2
  have a' := (hpi' i).2
  rw [← hE] at a
  rw [← hE'] at a'
  refine near_two a a' ?_
  let x : ℕ → ℝ := fun k => ((extend b.control_points k).coords i).toReal
  let y : ℕ → ℝ := fun k => ((extend b'.control_points k).coords i).toReal
  have hx : ∀ r : ℝ, ∑ k : Fin N, bernstein (N - 1) k r * ((b.control_points k).coords i).toReal
      = bsum (N - 1) x r := by
    intro r
    unfold bsum
    rw [show N - 1 + 1 = N by omega, ← Fin.sum_univ_eq_sum_range
      (fun k => bernstein (N - 1) k r * x k)]
    exact Finset.sum_congr rfl fun k _ => by simp only [x]; rw [extend_lt b.control_points k.2]
  have hy : ∀ r : ℝ, ∑ k : Fin N, bernstein (N - 1) k r * ((b'.control_points k).coords i).toReal
      = bsum (N - 1) y r := by
    intro r
    unfold bsum
    rw [show N - 1 + 1 = N by omega, ← Fin.sum_univ_eq_sum_range
      (fun k => bernstein (N - 1) k r * y k)]
    exact Finset.sum_congr rfl fun k _ => by simp only [y]; rw [extend_lt b'.control_points k.2]
  rw [hx, hy]
  refine bsum_close s01 t01 (fun k hk => ?_) (fun k hk => ?_)
  · simp only [x]
    rw [extend_lt b.control_points (k := k) (by omega)]
    exact (hb _ i).2
  · simp only [x, y]
    rw [extend_lt b.control_points (k := k) (by omega),
      extend_lt b'.control_points (k := k) (by omega)]
    exact hc _ i

/-! ### Casting a curve to the other format -/

/-- The cast of a point whose coordinates are at most `M`: the coordinates stay finite and move by
at most one rounding. -/
theorem C124_convert {p : PointN (Fl F) n} {M : ℝ} (hp : BoundedBy M p) (hM : M ≤ G.max) :
    BoundedBy (M + (G.u * M + G.eta)) (p.convert G) ∧ CloseTo (G.u * M + G.eta) p (p.convert G) := by
  have key : ∀ i, ((p.convert G).coords i).IsFinite ∧
      |((p.convert G).coords i).toReal - (p.coords i).toReal| ≤ G.u * M + G.eta := by
    intro i
    obtain ⟨hf, hb⟩ := hp i
    show ((p.coords i).convert G).IsFinite ∧ |((p.coords i).convert G).toReal - _| ≤ _
    revert hf hb
    generalize p.coords i = x
    intro hf hb
    obtain _ | _ | ⟨r, hr⟩ := x
    · exact absurd hf id
    · exact absurd hf id
    · have hb : |r| ≤ M := hb
      simp only [Fl.convert]
      rw [G.round_of_le (hb.trans hM)]
      refine ⟨trivial, (G.rnd_err r).trans ?_⟩
      gcongr
      exact G.u_nonneg
  refine ⟨fun i => ⟨(key i).1, ?_⟩, fun i => ?_⟩
  · calc |((p.convert G).coords i).toReal|
        = |(p.coords i).toReal + (((p.convert G).coords i).toReal - (p.coords i).toReal)| := by
          congr 1; ring
      _ ≤ |(p.coords i).toReal| + |((p.convert G).coords i).toReal - (p.coords i).toReal| :=
          abs_add_le _ _
      _ ≤ _ := add_le_add (hp i).2 (key i).2
  · rw [abs_sub_comm]
    exact (key i).2

/-- The cast of a parameter in [0, 1] is a parameter in [0, 1], one rounding away. -/
theorem C124_convert_param {s : ℝ} (hs : s ∈ F.grid ∧ |s| ≤ F.max) (s01 : 0 ≤ s ∧ s ≤ 1) :
    ∃ (t : ℝ) (ht : t ∈ G.grid ∧ |t| ≤ G.max), (fin s hs : Fl F).convert G = fin t ht ∧
      (0 ≤ t ∧ t ≤ 1) ∧ |s - t| ≤ G.u + G.eta := by
  have hm : |s| ≤ G.max := by
    rw [abs_of_nonneg s01.1]
    linarith [s01.2, G.max_ge]
  have z : G.rnd 0 = 0 := G.rnd_of_mem 0 (by simpa using G.int_mem 0 (by norm_num))
  have o : G.rnd 1 = 1 := G.rnd_of_mem 1 (by simpa using G.int_mem 1 (by norm_num))
  refine ⟨G.rnd s, _, G.round_of_le hm, ⟨?_, ?_⟩, ?_⟩
  · have := G.rnd_mono s01.1
    rwa [z] at this
  · have := G.rnd_mono s01.2
    rwa [o] at this
  · rw [abs_sub_comm]
    refine (G.rnd_err s).trans ?_
    rw [abs_of_nonneg s01.1]
    have := mul_le_mul_of_nonneg_left s01.2 G.u_nonneg
    linarith

/-- **C124**, a cubic curve cast to the other format and evaluated there at the cast of the
parameter. -/
theorem C124_cast_cubic (c : CubicBezier (PointN (Fl F) n)) {s M M' : ℝ}
    (hs : s ∈ F.grid ∧ |s| ≤ F.max) (s01 : 0 ≤ s ∧ s ≤ 1)
    (hu : F.u ≤ 1 / 1024) (he : F.eta ≤ 1 / 1024) (hu' : G.u ≤ 1 / 1024) (he' : G.eta ≤ 1 / 1024)
    (h1 : BoundedBy M c.start) (h2 : BoundedBy M c.ctrl1) (h3 : BoundedBy M c.ctrl2)
    (h4 : BoundedBy M c.end_) (hM : M ≤ M') (hM' : M + (G.u * M + G.eta) ≤ M')
    (hmax : 4 * M' + 2 ≤ F.max) (hmax' : 4 * M' + 2 ≤ G.max) (M0 : 0 ≤ M) :
    CloseTo (G.u * M + G.eta + 6 * M' * (G.u + G.eta)
        + (((1 + F.u) ^ 9 - 1) * M' + (54 * M' + 10) * F.eta)
        + (((1 + G.u) ^ 9 - 1) * M' + (54 * M' + 10) * G.eta))
      (c.eval (fin s hs))
      ((⟨c.start.convert G, c.ctrl1.convert G, c.ctrl2.convert G, c.end_.convert G⟩ :
        CubicBezier (PointN (Fl G) n)).eval ((fin s hs : Fl F).convert G)) ∧
    CloseTo (G.u * M + G.eta + 6 * M' * (G.u + G.eta)
        + (20 * F.u * M' + 14 * F.eta) + (20 * G.u * M' + 14 * G.eta))
      (c.evalCasteljau (fin s hs))
      ((⟨c.start.convert G, c.ctrl1.convert G, c.ctrl2.convert G, c.end_.convert G⟩ :
        CubicBezier (PointN (Fl G) n)).evalCasteljau ((fin s hs : Fl F).convert G)) := by
  obtain ⟨t, ht, e, t01, hst⟩ := C124_convert_param (G := G) hs s01
  rw [e]
  have hG : M ≤ G.max := by linarith
  have up : ∀ {p : PointN (Fl F) n}, BoundedBy M p → BoundedBy M' p :=
    fun h i => ⟨(h i).1, (h i).2.trans hM⟩
  have up' : ∀ {p : PointN (Fl F) n}, BoundedBy M p → BoundedBy M' (p.convert G) :=
    fun h i => ⟨((C124_convert h hG).1 i).1, ((C124_convert h hG).1 i).2.trans hM'⟩
  have k := C124_cubic c ⟨c.start.convert G, c.ctrl1.convert G, c.ctrl2.convert G, c.end_.convert G⟩
    hs ht s01 t01 hu he hu' he' (up h1) (up h2) (up h3) (up h4) (up' h1) (up' h2) (up' h3) (up' h4)
    (C124_convert h1 hG).2 (C124_convert h2 hG).2 (C124_convert h3 hG).2 (C124_convert h4 hG).2
    hmax hmax'
  have m : 6 * M' * |s - t| ≤ 6 * M' * (G.u + G.eta) :=
    mul_le_mul_of_nonneg_left hst (by linarith)
  exact ⟨fun i => (k.1 i).trans (by linarith), fun i => (k.2 i).trans (by linarith)⟩

/-- The numbers of single precision. -/
theorem b32_small (cosI acosI : ℝ → ℝ) (powI : ℝ → ℝ → ℝ) :
    (binary32 cosI acosI powI).u = 1 / 2 ^ 24 ∧ (binary32 cosI acosI powI).eta ≤ 1 / 10 ^ 15 ∧
    10 ^ 30 ≤ (binary32 cosI acosI powI).max := by
  refine ⟨?_, ?_, ?_⟩
  · show (2 : ℝ) ^ (-(24 : ℕ) : ℤ) = _
    norm_num
  · show (2 : ℝ) ^ ((-149 : ℤ) - 1) ≤ _
    calc (2 : ℝ) ^ ((-149 : ℤ) - 1) ≤ 2 ^ (-50 : ℤ) :=
          zpow_le_zpow_right₀ (by norm_num) (by norm_num)
      _ ≤ _ := by norm_num
  · show _ ≤ ((2 : ℝ) ^ 24 - 1) * 2 ^ (104 : ℤ)
    norm_num

/-- **C124** in numbers: a cubic curve in `f64` with coordinates of at most 1000, cast to `f32` and
evaluated there, gives the `f64` point within 0.002 on each axis, with either evaluation function. -/
theorem C124_f32_f64 (cosI acosI : ℝ → ℝ) (powI : ℝ → ℝ → ℝ)
    (c : CubicBezier (PointN (Fl (binary64 cosI acosI powI)) n)) {s : ℝ}
    (hs : s ∈ (binary64 cosI acosI powI).grid ∧ |s| ≤ (binary64 cosI acosI powI).max)
    (s01 : 0 ≤ s ∧ s ≤ 1)
    (h1 : BoundedBy 1000 c.start) (h2 : BoundedBy 1000 c.ctrl1) (h3 : BoundedBy 1000 c.ctrl2)
    (h4 : BoundedBy 1000 c.end_) : let G := binary32 cosI acosI powI
    CloseTo (2 / 1000) (c.eval (fin s hs))
      ((⟨c.start.convert G, c.ctrl1.convert G, c.ctrl2.convert G, c.end_.convert G⟩ :
        CubicBezier (PointN (Fl G) n)).eval ((fin s hs : Fl _).convert G)) ∧
    CloseTo (2 / 1000) (c.evalCasteljau (fin s hs))
      ((⟨c.start.convert G, c.ctrl1.convert G, c.ctrl2.convert G, c.end_.convert G⟩ :
        CubicBezier (PointN (Fl G) n)).evalCasteljau ((fin s hs : Fl _).convert G)) := by
  intro G
  obtain ⟨gu, ge, gm⟩ := b32_small cosI acosI powI
  obtain ⟨fu, fe, fm⟩ := b64_small cosI acosI powI
  have gu' : G.u = 1 / 2 ^ 24 := gu
  have ge' : G.eta ≤ 1 / 10 ^ 15 := ge
  have gm' : 10 ^ 30 ≤ G.max := gm
  have fu0 := (binary64 cosI acosI powI).u_nonneg
  have fe0 := (binary64 cosI acosI powI).eta_nonneg
  have k := C124_cast_cubic (G := G) c (M := 1000) (M' := 1001) hs s01
    (fu.trans (by norm_num)) (fe.trans (by norm_num)) (by rw [gu']; norm_num)
    (ge'.trans (by norm_num)) h1 h2 h3 h4 (by norm_num)
    (by rw [gu']; linarith) (by linarith) (by linarith) (by norm_num)
  rw [gu'] at k
  have p : (1 + (binary64 cosI acosI powI).u) ^ 9 ≤ (1 + 1 / 10 ^ 15 : ℝ) ^ 9 := by gcongr
  have p' : (1 + 1 / 10 ^ 15 : ℝ) ^ 9 ≤ 1 + 1 / 10 ^ 13 := by norm_num
  have p'' : (1 + 1 / 2 ^ 24 : ℝ) ^ 9 ≤ 1 + 6 / 10 ^ 7 := by norm_num
  refine ⟨fun i => (k.1 i).trans ?_, fun i => (k.2 i).trans ?_⟩
  · norm_num at *
    linarith
  · norm_num at *
    linarith

/-- **C124**, the other way round: the cast from `f32` to `f64` loses nothing, so a curve may be
cast to `f64` and back. -/
theorem C124_widen (cosI acosI : ℝ → ℝ) (powI : ℝ → ℝ → ℝ) (x : Fl (binary32 cosI acosI powI)) :
    (x.convert (binary64 cosI acosI powI)).val? = x.val? ∧
    (x.convert (binary64 cosI acosI powI)).convert (binary32 cosI acosI powI) = x := by
  obtain _ | s | ⟨r, hr⟩ := x
  · exact ⟨rfl, rfl⟩
  · exact ⟨by cases s <;> rfl, rfl⟩
  · have hr' : r ∈ (binary64 cosI acosI powI).grid ∧ |r| ≤ (binary64 cosI acosI powI).max := by
      obtain ⟨⟨m, e, hm, he, h⟩, hb⟩ := hr
      refine ⟨⟨m, e, hm.trans (by norm_num), le_trans (by norm_num) he, h⟩, hb.trans ?_⟩
      show ((2 : ℝ) ^ 24 - 1) * 2 ^ 104 ≤ _
      exact le_trans (by norm_num) (b64_small cosI acosI powI).2.2
    simp only [Fl.convert]
    rw [(binary64 cosI acosI powI).round_of_mem hr']
    exact ⟨rfl, (binary32 cosI acosI powI).round_of_mem hr⟩

/-- The cast to `f32` does lose: 2^24 + 1 is a number of `f64` and not of `f32`. -/
theorem C124_narrow_loses (cosI acosI : ℝ → ℝ) (powI : ℝ → ℝ → ℝ) :
    ∃ x : Fl (binary64 cosI acosI powI), x.IsFinite ∧
      (x.convert (binary32 cosI acosI powI)).val? ≠ x.val? := by
  have h64 := binary64_dyadics cosI acosI powI (2 ^ 24 + 1) 0 (by norm_num) (by norm_num)
  have e : ((2 ^ 24 + 1 : ℤ) : ℝ) / 2 ^ 0 = 16777217 := by norm_num
  rw [e] at h64
  refine ⟨fin 16777217 h64, trivial, ?_⟩
  have hb : |(16777217 : ℝ)| ≤ (binary32 cosI acosI powI).max :=
    le_trans (by norm_num) (b32_small cosI acosI powI).2.2
  simp only [Fl.convert]
  rw [(binary32 cosI acosI powI).round_of_le hb]
  intro h
  have h : (((binary32 cosI acosI powI).rnd 16777217 : ℝ) : EReal) = ((16777217 : ℝ) : EReal) :=
    Option.some.inj h
  have h := EReal.coe_eq_coe_iff.1 h
  have hm := (binary32 cosI acosI powI).rnd_mem 16777217
  rw [h] at hm
  obtain ⟨m, e, hm, he, hx⟩ := hm
  have hm : |m| ≤ 2 ^ 24 := hm
  rcases le_or_gt e 0 with h0 | h0
  · have h1 : (2 : ℝ) ^ e ≤ 1 := zpow_le_one_of_nonpos₀ (by norm_num) h0
    have h2 : ((|m| : ℤ) : ℝ) ≤ 2 ^ 24 := by exact_mod_cast hm
    push_cast at h2
    have h3 : (m : ℝ) ≤ 2 ^ 24 := (le_abs_self _).trans h2
    have h4 : (0 : ℝ) < 2 ^ e := by positivity
    nlinarith
  · obtain ⟨k, rfl⟩ : ∃ k : ℕ, e = k + 1 := ⟨(e - 1).toNat, by omega⟩
    have h1 : (16777217 : ℤ) = m * 2 ^ (k + 1) := by
      have : (16777217 : ℝ) = m * 2 ^ (k + 1) := by
        rw [hx, ← zpow_natCast]
        push_cast
        rfl
      exact_mod_cast this
    rw [pow_succ, ← mul_assoc] at h1
    generalize m * 2 ^ k = z at h1
    omega

/-- The hypotheses can be met: a cubic curve with corners at small integers, at the parameter 3/8. -/
example (cosI acosI : ℝ → ℝ) (powI : ℝ → ℝ → ℝ) := C124_f32_f64 cosI acosI powI
  (smallCubic cosI acosI powI) (s := 3 / 8) (by
    have h := binary64_dyadics cosI acosI powI 3 3 (by norm_num) (by norm_num)
    norm_num at h ⊢
    exact h) ⟨by norm_num, by norm_num⟩
  (fun i => ⟨(smallPoint_bounded cosI acosI powI _ _ i).1,
    (smallPoint_bounded cosI acosI powI _ _ i).2.trans (by norm_num)⟩)
  (fun i => ⟨(smallPoint_bounded cosI acosI powI _ _ i).1,
    (smallPoint_bounded cosI acosI powI _ _ i).2.trans (by norm_num)⟩)
  (fun i => ⟨(smallPoint_bounded cosI acosI powI _ _ i).1,
    (smallPoint_bounded cosI acosI powI _ _ i).2.trans (by norm_num)⟩)
  (fun i => ⟨(smallPoint_bounded cosI acosI powI _ _ i).1,
    (smallPoint_bounded cosI acosI powI _ _ i).2.trans (by norm_num)⟩)

end Stroke
