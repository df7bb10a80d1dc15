import Verif.Props.FloatContinuity
import Verif.Props.FloatExact
import Verif.Props.FloatEndpoints

/-!
# Bisection on a computed coordinate (C129)

A client that looks for the parameter at which a curve reaches a given coordinate can halve the
parameter interval and call `eval`. The loop below is the client's; everything it calls is the
library's.
-/

set_option linter.unusedSectionVars false

namespace Stroke

open Fl

/-- The client's loop: `k` times, halve `[lo, hi]` and keep the half whose ends are on both sides
of `v`. `g` is the library call; `none` is a panic in it. -/
def bisect {S : Type} [Scalar S] (g : S → Option S) (v : S) : ℕ → S → S → Option (S × S)
  | 0, lo, hi => some (lo, hi)
  | k + 1, lo, hi => do
    let mid := (lo + hi) / lit 2
    let x ← g mid
    if Scalar.lt x v then bisect g v k mid hi else bisect g v k lo mid

/-- **C129**, in any arithmetic whatever: the coordinate computed at the lower end stays below `v`,
and the one computed at the upper end does not become smaller than `v`. -/
theorem C129_bracket {S : Type} [Scalar S] (g : S → Option S) (v : S) (k : ℕ) (lo hi lo' hi' : S)
    (h : bisect g v k lo hi = some (lo', hi'))
    (h0 : ∃ x, g lo = some x ∧ Scalar.lt x v = true)
    (h1 : ∃ x, g hi = some x ∧ Scalar.lt x v = false) :
    (∃ x, g lo' = some x ∧ Scalar.lt x v = true) ∧
    (∃ x, g hi' = some x ∧ Scalar.lt x v = false) := by
  induction k generalizing lo hi with
  | zero =>
    obtain ⟨rfl, rfl⟩ : lo = lo' ∧ hi = hi' := by simpa [bisect] using h
    exact ⟨h0, h1⟩
  | succ k ih =>
    unfold bisect at h
    rcases hx : g ((lo + hi) / lit 2) with _ | x
    · simp [hx] at h
    · simp only [hx, Option.bind_eq_bind, Option.bind_some] at h
      by_cases hl : Scalar.lt x v = true
      · rw [if_pos hl] at h
        exact ih _ _ h ⟨x, hx, hl⟩ h1
      · rw [if_neg hl] at h
        exact ih _ _ h h0 ⟨x, hx, by simpa using hl⟩

variable {F : FloatFormat} {n : ℕ}

/-- The midpoint of two neighbouring numbers of a dyadic grid is computed exactly. -/
theorem midpoint_exact {p q a : ℕ} {j : ℤ} (hF : HasDyadics F p q) (ha : a + 1 ≤ q)
    (hp : a + 1 ≤ p) (j0 : 0 ≤ j) (j1 : j + 1 ≤ 2 ^ a) {lo hi : Fl F} (fl : lo.IsFinite)
    (fh : hi.IsFinite) (el : lo.toReal = j / 2 ^ a) (eh : hi.toReal = (j + 1) / 2 ^ a) :
    ((lo + hi) / lit 2).IsFinite ∧ ((lo + hi) / lit 2).toReal = (2 * j + 1 : ℤ) / 2 ^ (a + 1) := by
  obtain ⟨r, hr, rfl⟩ := isFinite_iff.1 fl
  obtain ⟨s, hs, rfl⟩ := isFinite_iff.1 fh
  rw [toReal_fin] at el eh
  have hb : |2 * j + 1| ≤ 2 ^ p := by
    rw [abs_of_nonneg (by omega)]
    have : (2 : ℤ) ^ (a + 1) ≤ 2 ^ p := pow_le_pow_right₀ (by norm_num) hp
    rw [pow_succ] at this
    omega
  have m1 := hF (2 * j + 1) a hb (by omega)
  have m2 := hF (2 * j + 1) (a + 1) hb ha
  have h2 : (lit 2 : Fl F) = fin ((2 : ℤ) : ℝ) (F.int_ok 2 (by norm_num)) := by
    have := lit_int (F := F) 2 (by norm_num)
    exact_mod_cast this
  have es : r + s = ((2 * j + 1 : ℤ) : ℝ) / 2 ^ a := by
    rw [el, eh]; push_cast; ring
  rw [fin_add, es, F.round_of_mem m1, h2, fin_div (by norm_num),
    show ((2 * j + 1 : ℤ) : ℝ) / 2 ^ a / ((2 : ℤ) : ℝ) = ((2 * j + 1 : ℤ) : ℝ) / 2 ^ (a + 1) by
      rw [pow_succ, div_div]; norm_num, F.round_of_mem m2]
  exact ⟨trivial, rfl⟩

/-- The loop in floating point arithmetic: every midpoint is exact, so after `k` steps the
parameters are neighbours on the grid of multiples of `2^-k`. -/
theorem bisect_grid {p q : ℕ} (hF : HasDyadics F p q) (g : Fl F → Option (Fl F)) (v : Fl F)
    (hg : ∀ t : Fl F, t.IsFinite → 0 ≤ t.toReal → t.toReal ≤ 1 → ∃ x, g t = some x)
    (k a : ℕ) (j : ℤ) (ha : a + k ≤ q) (hp : a + k ≤ p) (j0 : 0 ≤ j) (j1 : j + 1 ≤ 2 ^ a)
    (lo hi : Fl F) (fl : lo.IsFinite) (fh : hi.IsFinite) (el : lo.toReal = j / 2 ^ a)
    (eh : hi.toReal = (j + 1) / 2 ^ a) :
    ∃ (lo' hi' : Fl F) (i : ℤ), bisect g v k lo hi = some (lo', hi') ∧ 0 ≤ i ∧
      i + 1 ≤ 2 ^ (a + k) ∧ lo'.IsFinite ∧ hi'.IsFinite ∧ lo'.toReal = i / 2 ^ (a + k) ∧
      hi'.toReal = (i + 1) / 2 ^ (a + k) := by
  induction k generalizing a j lo hi with
  | zero => exact ⟨lo, hi, j, rfl, j0, j1, fl, fh, el, eh⟩
  | succ k ih =>
    obtain ⟨fm, em⟩ := midpoint_exact hF (by omega) (by omega) j0 j1 fl fh el eh
    have p0 : (0 : ℝ) < 2 ^ (a + 1) := by positivity
    have j1' : 2 * j + 2 ≤ 2 ^ (a + 1) := by rw [pow_succ]; omega
    have j1r : ((2 * j + 2 : ℤ) : ℝ) ≤ 2 ^ (a + 1) := by exact_mod_cast j1'
    have j0r : (0 : ℝ) ≤ j := by exact_mod_cast j0
    obtain ⟨x, hx⟩ := hg _ fm (by rw [em]; push_cast; positivity) (by
      rw [em, div_le_one p0]; push_cast at j1r ⊢; linarith)
    unfold bisect
    simp only [hx, Option.bind_eq_bind, Option.bind_some]
    have ek : a + 1 + k = a + (k + 1) := by omega
    by_cases hl : Scalar.lt x v = true
    · rw [if_pos hl, ← ek]
      refine ih (a + 1) (2 * j + 1) (by omega) (by omega) (by omega) (by omega) _ _ fm fh em ?_
      rw [eh, pow_succ]; push_cast; field_simp; ring
    · rw [if_neg hl, ← ek]
      refine ih (a + 1) (2 * j) (by omega) (by omega) (by omega) (by omega) _ _ fl fm ?_ ?_
      · rw [el, pow_succ]; push_cast; field_simp
      · rw [em]; push_cast; rfl

/-- The bisection on a coordinate that is computed with an error of at most `E`. -/
theorem bisect_near {p q m : ℕ} (hF : HasDyadics F p q) (g : Fl F → Option (Fl F)) (x : ℕ → ℝ)
    {D E : ℝ} (hD : ∀ k < m, |x (k + 1) - x k| ≤ D)
    (hg : ∀ t : Fl F, t.IsFinite → 0 ≤ t.toReal → t.toReal ≤ 1 →
      ∃ y, g t = some y ∧ y.IsFinite ∧ |y.toReal - bsum m x t.toReal| ≤ E)
    (k : ℕ) (hk : k ≤ q) (hk' : k ≤ p) (v : Fl F) (fv : v.IsFinite)
    (h0 : ∃ y, g (lit 0) = some y ∧ y.IsFinite ∧ y.toReal < v.toReal)
    (h1 : ∃ y, g (lit 1) = some y ∧ y.IsFinite ∧ v.toReal ≤ y.toReal) :
    ∃ lo hi y z, bisect g v k (lit 0) (lit 1) = some (lo, hi) ∧ lo.IsFinite ∧ hi.IsFinite ∧
      0 ≤ lo.toReal ∧ hi.toReal ≤ 1 ∧ hi.toReal = lo.toReal + 1 / 2 ^ k ∧
      g lo = some y ∧ g hi = some z ∧ y.toReal < v.toReal ∧ v.toReal ≤ z.toReal ∧
      |y.toReal - v.toReal| ≤ m * D / 2 ^ k + 2 * E ∧
      |bsum m x lo.toReal - v.toReal| ≤ m * D / 2 ^ k + E ∧
      |z.toReal - v.toReal| ≤ m * D / 2 ^ k + 2 * E ∧
      |bsum m x hi.toReal - v.toReal| ≤ m * D / 2 ^ k + E := by
  obtain ⟨lo, hi, i, hb, i0, i1, fl, fh, el, eh⟩ := bisect_grid hF g v
    (fun t ft t0 t1 => by obtain ⟨y, hy, -⟩ := hg t ft t0 t1; exact ⟨y, hy⟩) k 0 0 (by omega)
    (by omega) le_rfl (by norm_num) (lit 0) (lit 1) (by rw [lit_zero]; trivial)
    (by rw [lit_one]; trivial) (by rw [lit_zero, toReal_fin]; norm_num)
    (by rw [lit_one, toReal_fin]; norm_num)
  rw [Nat.zero_add] at el eh i1
  have p0 : (0 : ℝ) < 2 ^ k := by positivity
  have i0r : (0 : ℝ) ≤ i := by exact_mod_cast i0
  have i1r : ((i + 1 : ℤ) : ℝ) ≤ 2 ^ k := by exact_mod_cast i1
  push_cast at i1r
  have step : hi.toReal = lo.toReal + 1 / 2 ^ k := by rw [el, eh]; ring
  have st0 : (0 : ℝ) < 1 / 2 ^ k := by positivity
  have l0 : 0 ≤ lo.toReal := by rw [el]; positivity
  have h1' : hi.toReal ≤ 1 := by rw [eh, div_le_one p0]; exact i1r
  obtain ⟨w, hw, rfl⟩ := isFinite_iff.1 fv
  obtain ⟨⟨y, hy, ly⟩, ⟨z, hz, lz⟩⟩ := C129_bracket g _ k _ _ _ _ hb
    (by
      obtain ⟨y, hy, fy, h⟩ := h0
      obtain ⟨r, hr, rfl⟩ := isFinite_iff.1 fy
      exact ⟨_, hy, lt_fin.2 h⟩)
    (by
      obtain ⟨y, hy, fy, h⟩ := h1
      obtain ⟨r, hr, rfl⟩ := isFinite_iff.1 fy
      refine ⟨_, hy, ?_⟩
      rw [Bool.eq_false_iff]
      intro hlt
      exact absurd (lt_fin.1 hlt) (not_lt.2 h))
  obtain ⟨y', hy', fy, ey⟩ := hg lo fl l0 (by linarith)
  obtain ⟨z', hz', fz, ez⟩ := hg hi fh (by linarith) h1'
  obtain rfl : y = y' := Option.some.inj (hy.symm.trans hy')
  obtain rfl : z = z' := Option.some.inj (hz.symm.trans hz')
  obtain ⟨r, hr, rfl⟩ := isFinite_iff.1 fy
  obtain ⟨s, hs, rfl⟩ := isFinite_iff.1 fz
  have a1 : r < w := lt_fin.1 ly
  have a2 : w ≤ s := by
    by_contra hc
    rw [Bool.eq_false_iff] at lz
    exact lz (lt_fin.2 (not_le.1 hc))
  have lip := abs_le.1 (bsum_lipschitz hD (s := lo.toReal) (t := hi.toReal) ⟨l0, by linarith⟩
    ⟨by linarith, h1'⟩)
  rw [show hi.toReal - lo.toReal = 1 / 2 ^ k by linarith, abs_of_pos st0, mul_one_div] at lip
  rw [toReal_fin] at ey ez
  have ey := abs_le.1 ey
  have ez := abs_le.1 ez
  refine ⟨lo, hi, _, _, hb, fl, fh, l0, h1', step, hy, hz, a1, a2, ?_, ?_, ?_, ?_⟩ <;>
    rw [abs_le] <;> simp only [toReal_fin] <;> constructor <;>
    linarith [lip.1, lip.2, ey.1, ey.2, ez.1, ez.2]

/-- **C129** for curves of every degree: `Bezier::eval` followed by reading off an axis. -/
theorem C129_bezier {N p q : ℕ} (hF : HasDyadics F p q) (hN : 1 ≤ N)
    (b : Bezier (PointN (Fl F) n) N) {M E D : ℝ}
    (hb : ∀ k, BoundedBy M (b.control_points k)) (hM0 : 0 ≤ M)
    (hE : E = ((1 + F.u) ^ 2 * (1 + F.u + F.eta)) ^ (N - 1)
      * (M + (N - 1 : ℕ) * (3 * (1 + F.u) * F.eta)) - M) (hmax : M + E ≤ F.max) (i : Fin n)
    (hD : ∀ (k : ℕ) (h : k + 1 < N), |((b.control_points ⟨k + 1, h⟩).coords i).toReal
          - ((b.control_points ⟨k, by omega⟩).coords i).toReal| ≤ D)
    (v : Fl F) (fv : v.IsFinite)
    (h0 : ((b.control_points ⟨0, by omega⟩).coords i).toReal < v.toReal)
    (h1 : v.toReal ≤ ((b.control_points ⟨N - 1, by omega⟩).coords i).toReal)
    (k : ℕ) (hk : k ≤ q) (hk' : k ≤ p) :
    ∃ lo hi y z, bisect (fun t => (b.eval t).map fun r => r.coords i) v k (lit 0) (lit 1)
        = some (lo, hi) ∧ lo.IsFinite ∧ hi.IsFinite ∧
      0 ≤ lo.toReal ∧ hi.toReal ≤ 1 ∧ hi.toReal = lo.toReal + 1 / 2 ^ k ∧
      b.eval lo = some y ∧ b.eval hi = some z ∧ (y.coords i).toReal < v.toReal ∧
      v.toReal ≤ (z.coords i).toReal ∧
      |(y.coords i).toReal - v.toReal| ≤ (N - 1 : ℕ) * D / 2 ^ k + 2 * E ∧
      |∑ m : Fin N, bernstein (N - 1) m lo.toReal * ((b.control_points m).coords i).toReal
        - v.toReal| ≤ (N - 1 : ℕ) * D / 2 ^ k + E := by
  have hsum : ∀ y : ℝ, ∑ k : Fin N, bernstein (N - 1) k y * ((b.control_points k).coords i).toReal
      = bsum (N - 1) (fun k => ((extend b.control_points k).coords i).toReal) y := by
    intro y
    unfold bsum
    rw [show N - 1 + 1 = N by omega, ← Fin.sum_univ_eq_sum_range
      (fun k => bernstein (N - 1) k y * ((extend b.control_points k).coords i).toReal)]
    exact Finset.sum_congr rfl fun k _ => by rw [extend_lt b.control_points k.2]
  obtain ⟨z0, z1⟩ := C60_bezier b hN (fun k i => (hb k i).1)
  obtain ⟨lo, hi, y, z, e, fl, fh, l0, l1, st, gy, gz, vy, vz, c1, c2, -, -⟩ :=
    bisect_near hF (fun t => (b.eval t).map fun r => r.coords i)
    (fun k => ((extend b.control_points k).coords i).toReal) (m := N - 1) (D := D) (E := E)
    (fun k hk => by
      rw [extend_lt b.control_points (k := k) (by omega),
        extend_lt b.control_points (k := k + 1) (by omega)]
      exact hD k (by omega))
    (fun t ft t0 t1 => by
      obtain ⟨r, hr, rfl⟩ := isFinite_iff.1 ft
      obtain ⟨w, hw, hwi⟩ := C62_bezier_error hN b hr t0 t1 (fun k i => (hb k i).1)
        (fun k i => (hb k i).2) hM0 (by linarith)
      refine ⟨w.coords i, by rw [hw]; rfl, (hwi i).1, ?_⟩
      have := (hwi i).2
      rw [hsum, ← hE] at this
      exact this) k hk hk' v fv
    ⟨_, by rw [z0]; rfl, (hb _ i).1, h0⟩ ⟨_, by rw [z1]; rfl, (hb _ i).1, h1⟩
  rcases hl : b.eval lo with _ | y'
  · simp [hl] at gy
  rcases hh : b.eval hi with _ | z'
  · simp [hh] at gz
  obtain rfl : y'.coords i = y := by simpa [hl] using gy
  obtain rfl : z'.coords i = z := by simpa [hh] using gz
  exact ⟨lo, hi, y', z', e, fl, fh, l0, l1, st, by first | rfl | exact hl,
    by first | rfl | exact hh, vy, vz, c1, by rw [hsum]; exact c2⟩

/-- **C129** for cubic curves: `CubicBezier::eval` followed by reading off an axis. -/
theorem C129_cubic {p q : ℕ} (hF : HasDyadics F p q) (c : CubicBezier (PointN (Fl F) n)) {M E D : ℝ}
    (hu : F.u ≤ 1 / 1024) (he : F.eta ≤ 1 / 1024)
    (h1 : BoundedBy M c.start) (h2 : BoundedBy M c.ctrl1) (h3 : BoundedBy M c.ctrl2)
    (h4 : BoundedBy M c.end_) (hmax : 4 * M + 2 ≤ F.max)
    (hE : E = ((1 + F.u) ^ 9 - 1) * M + (54 * M + 10) * F.eta) (i : Fin n)
    (x0 x1 x2 x3 : ℝ) (e0 : (c.start.coords i).toReal = x0)
    (e1 : (c.ctrl1.coords i).toReal = x1) (e2 : (c.ctrl2.coords i).toReal = x2)
    (e3 : (c.end_.coords i).toReal = x3) (d1 : |x1 - x0| ≤ D) (d2 : |x2 - x1| ≤ D)
    (d3 : |x3 - x2| ≤ D) (v : Fl F) (fv : v.IsFinite) (hv : x0 < v.toReal) (hv' : v.toReal ≤ x3)
    (k : ℕ) (hk : k ≤ q) (hk' : k ≤ p) :
    ∃ lo hi, bisect (fun t => some ((c.eval t).coords i)) v k (lit 0) (lit 1) = some (lo, hi) ∧
      lo.IsFinite ∧ hi.IsFinite ∧
      0 ≤ lo.toReal ∧ hi.toReal ≤ 1 ∧ hi.toReal = lo.toReal + 1 / 2 ^ k ∧
      ((c.eval lo).coords i).toReal < v.toReal ∧ v.toReal ≤ ((c.eval hi).coords i).toReal ∧
      |((c.eval lo).coords i).toReal - v.toReal| ≤ 3 * D / 2 ^ k + 2 * E ∧
      |(1 - lo.toReal) ^ 3 * x0 + 3 * lo.toReal * (1 - lo.toReal) ^ 2 * x1
        + 3 * lo.toReal ^ 2 * (1 - lo.toReal) * x2 + lo.toReal ^ 3 * x3 - v.toReal|
        ≤ 3 * D / 2 ^ k + E := by
  let x : ℕ → ℝ := fun k => if k = 0 then x0 else if k = 1 then x1 else if k = 2 then x2 else x3
  have hx : ∀ y, (1 - y) ^ 3 * x0 + 3 * y * (1 - y) ^ 2 * x1 + 3 * y ^ 2 * (1 - y) * x2 + y ^ 3 * x3
      = bsum 3 x y := fun y => cubic_bsum x y
  obtain ⟨z0, z1⟩ := C60_cubic c (fun i => (h1 i).1) (fun i => (h2 i).1) (fun i => (h3 i).1)
    (fun i => (h4 i).1)
  obtain ⟨lo, hi, y, z, e, fl, fh, l0, l1, st, gy, gz, vy, vz, c1, c2, -, -⟩ :=
    bisect_near hF (fun t => some ((c.eval t).coords i)) x (m := 3) (D := D) (E := E)
    (fun k hk => by
      interval_cases k
      · exact d1
      · exact d2
      · exact d3)
    (fun t ft t0 t1 => by
      obtain ⟨r, hr, rfl⟩ := isFinite_iff.1 ft
      have := C67_cubic_eval c hr t0 t1 hu he h1 h2 h3 h4 (by linarith) i
      rw [e0, e1, e2, e3, hx, ← hE] at this
      exact ⟨_, rfl, this⟩) k hk hk' v fv
    ⟨_, by rw [z0], (h1 i).1, by rw [e0]; exact hv⟩ ⟨_, by rw [z1], (h4 i).1, by rw [e3]; exact hv'⟩
  obtain rfl := Option.some.inj gy
  obtain rfl := Option.some.inj gz
  push_cast at c1 c2
  exact ⟨lo, hi, e, fl, fh, l0, l1, st, vy, vz, c1, by rw [hx]; exact c2⟩

/-- **C129**, the numbers for `f64`: 52 halvings find the parameter of a cubic curve at which a
coordinate takes the value `v`, up to `10^-14` times the size of the curve. -/
theorem C129_binary64 (cosI acosI : ℝ → ℝ) (powI : ℝ → ℝ → ℝ) : let F := binary64 cosI acosI powI
    ∀ (c : CubicBezier (PointN (Fl F) n)) (M : ℝ), BoundedBy M c.start → BoundedBy M c.ctrl1 →
      BoundedBy M c.ctrl2 → BoundedBy M c.end_ → 0 ≤ M → M ≤ 10 ^ 50 →
    ∀ (i : Fin n) (v : Fl F), v.IsFinite → (c.start.coords i).toReal < v.toReal →
      v.toReal ≤ (c.end_.coords i).toReal →
    ∃ lo hi, bisect (fun t => some ((c.eval t).coords i)) v 52 (lit 0) (lit 1) = some (lo, hi) ∧
      0 ≤ lo.toReal ∧ lo.toReal < 1 ∧
      |(1 - lo.toReal) ^ 3 * (c.start.coords i).toReal
        + 3 * lo.toReal * (1 - lo.toReal) ^ 2 * (c.ctrl1.coords i).toReal
        + 3 * lo.toReal ^ 2 * (1 - lo.toReal) * (c.ctrl2.coords i).toReal
        + lo.toReal ^ 3 * (c.end_.coords i).toReal - v.toReal| ≤ 1 / 10 ^ 14 * M + 1 / 10 ^ 58 := by
  intro F c M h1 h2 h3 h4 hM0 hM i v fv hv hv'
  have hu : F.u = 1 / 2 ^ 53 := by
    show (2 : ℝ) ^ (-(53 : ℕ) : ℤ) = _
    norm_num
  have hη : F.eta ≤ 1 / 10 ^ 60 := by simpa using binary64_eta cosI acosI powI
  have e0 : 0 ≤ F.eta := F.eta_nonneg
  have hm : (10 : ℝ) ^ 60 ≤ F.max := by simpa using binary64_max cosI acosI powI
  have k1 := abs_le.1 (h1 i).2
  have k2 := abs_le.1 (h2 i).2
  have k3 := abs_le.1 (h3 i).2
  have k4 := abs_le.1 (h4 i).2
  obtain ⟨lo, hi, e, fl, fh, l0, l1, st, -, -, -, hc⟩ :=
    C129_cubic (binary64_dyadics cosI acosI powI) c (M := M) (D := 2 * M)
      (by rw [hu]; norm_num) (hη.trans (by norm_num)) h1 h2 h3 h4 (by linarith) rfl i _ _ _ _ rfl rfl
      rfl rfl (by rw [abs_le]; constructor <;> linarith) (by rw [abs_le]; constructor <;> linarith)
      (by rw [abs_le]; constructor <;> linarith) v fv hv hv' 52 (by norm_num) (by norm_num)
  refine ⟨lo, hi, e, l0, ?_, hc.trans ?_⟩
  · have : (0 : ℝ) < 1 / 2 ^ 52 := by positivity
    linarith
  · have a1 : ((1 + F.u) ^ 9 - 1) ≤ 10 / 2 ^ 53 := by rw [hu]; norm_num
    have a2 : ((1 + F.u) ^ 9 - 1) * M ≤ 10 / 2 ^ 53 * M := mul_le_mul_of_nonneg_right a1 hM0
    have a3 : (54 * M + 10) * F.eta ≤ (54 * M + 10) * (1 / 10 ^ 60) :=
      mul_le_mul_of_nonneg_left hη (by linarith)
    have a4 : 3 * (2 * M) / 2 ^ 52 = 6 / 2 ^ 52 * M := by ring
    rw [a4]
    have a5 : (6 / 2 ^ 52 + 10 / 2 ^ 53 + 54 * (1 / 10 ^ 60) : ℝ) ≤ 1 / 10 ^ 14 := by norm_num
    have := mul_le_mul_of_nonneg_right a5 hM0
    have a6 : (10 * (1 / 10 ^ 60) : ℝ) ≤ 1 / 10 ^ 58 := by norm_num
    linarith

/-- A curve whose coordinate goes up, down and up again meets the hypotheses of `C129_binary64`:
control values 0, 10, -5, 3 and `v = 1`. -/
example (cosI acosI : ℝ → ℝ) (powI : ℝ → ℝ → ℝ) : let F := binary64 cosI acosI powI
    ∃ (c : CubicBezier (PointN (Fl F) 1)) (v : Fl F), BoundedBy 10 c.start ∧ BoundedBy 10 c.ctrl1 ∧
      BoundedBy 10 c.ctrl2 ∧ BoundedBy 10 c.end_ ∧ v.IsFinite ∧
      (c.start.coords 0).toReal < v.toReal ∧ v.toReal ≤ (c.end_.coords 0).toReal := by
  intro F
  have b : ∀ k : ℤ, |k| ≤ 10 → BoundedBy 10 (⟨fun _ => lit (k : ℚ)⟩ : PointN (Fl F) 1) ∧
      (lit (k : ℚ) : Fl F).toReal = k := by
    intro k hk
    have e := lit_int (F := F) k (hk.trans (by norm_num))
    refine ⟨fun i => ?_, by rw [e]; rfl⟩
    show (lit (k : ℚ) : Fl F).IsFinite ∧ |(lit (k : ℚ) : Fl F).toReal| ≤ 10
    rw [e, toReal_fin]
    exact ⟨trivial, by exact_mod_cast hk⟩
  refine ⟨⟨⟨fun _ => lit ((0 : ℤ) : ℚ)⟩, ⟨fun _ => lit ((10 : ℤ) : ℚ)⟩, ⟨fun _ => lit ((-5 : ℤ) : ℚ)⟩,
    ⟨fun _ => lit ((3 : ℤ) : ℚ)⟩⟩, lit ((1 : ℤ) : ℚ), (b 0 (by norm_num)).1, (b 10 (by norm_num)).1,
    (b (-5) (by norm_num)).1, (b 3 (by norm_num)).1, ?_, ?_, ?_⟩
  · exact ((b 1 (by norm_num)).1 0).1
  · show (lit ((0 : ℤ) : ℚ) : Fl F).toReal < _
    rw [(b 0 (by norm_num)).2, (b 1 (by norm_num)).2]; norm_num
  · show _ ≤ (lit ((3 : ℤ) : ℚ) : Fl F).toReal
    rw [(b 3 (by norm_num)).2, (b 1 (by norm_num)).2]; norm_num

end Stroke
