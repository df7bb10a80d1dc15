import Verif.Props.LengthBounds
import Verif.Props.Lipschitz

/-!
# How far a curve is from its control polygon (C135)

The polygon through the control points is walked at constant speed per leg: at `t = (j + l) / n` it
is at `(1 - l)·p[j] + l·p[j+1]`, `n` being the degree.  The distance to the curve at the same
parameter is bounded by the second differences of the control points.
-/

namespace Stroke

/-- Second moment of the Bernstein basis. -/
theorem bernstein_second (n : ℕ) (t : ℝ) :
    ∑ k ∈ Finset.range (n + 1), bernstein n k t * (k : ℝ) ^ 2 = n * t * (1 - t) + (n * t) ^ 2 := by
  have h := congrArg (Polynomial.eval t) (bernsteinPolynomial.sum_mul_smul ℝ n)
  rw [Polynomial.eval_finsetSum] at h
  simp only [bernsteinPolynomial, nsmul_eq_mul, Polynomial.eval_mul, Polynomial.eval_natCast,
    Polynomial.eval_pow, Polynomial.eval_X, Polynomial.eval_sub, Polynomial.eval_one] at h
  have hc : ∀ m : ℕ, ((m * (m - 1) : ℕ) : ℝ) = (m : ℝ) ^ 2 - m := by
    intro m
    cases m with
    | zero => simp
    | succ m => push_cast [Nat.add_sub_cancel]; ring
  have hl := bernstein_linear n t
  have e : ∀ k ∈ Finset.range (n + 1), bernstein n k t * (k : ℝ) ^ 2
      = ((k * (k - 1) : ℕ) : ℝ) * (((n.choose k : ℕ) : ℝ) * t ^ k * (1 - t) ^ (n - k))
        + bernstein n k t * k := by
    intro k _
    rw [hc, bernstein]
    ring
  rw [Finset.sum_congr rfl e, Finset.sum_add_distrib, hl, h, hc]
  ring

section Norm
variable {E : Type*} [NormedAddCommGroup E] [NormedSpace ℝ E]

theorem first_difference {A : ℝ} {n : ℕ} {x : ℕ → E}
    (hA : ∀ j, j + 2 ≤ n → ‖x j + x (j + 2) - (2 : ℝ) • x (j + 1)‖ ≤ A) (a m : ℕ)
    (h : a + m + 1 ≤ n) : ‖(x (a + m + 1) - x (a + m)) - (x (a + 1) - x a)‖ ≤ m * A := by
  induction m with
  | zero => simp
  | succ m ih =>
    have h1 := ih (by omega)
    have h2 := hA (a + m) (by omega)
    have e : (x (a + (m + 1) + 1) - x (a + (m + 1))) - (x (a + 1) - x a)
        = ((x (a + m + 1) - x (a + m)) - (x (a + 1) - x a))
          + (x (a + m) + x (a + m + 2) - (2 : ℝ) • x (a + m + 1)) := by
      rw [show a + (m + 1) + 1 = a + m + 2 by omega, show a + (m + 1) = a + m + 1 by omega]
      module
    rw [e]
    refine (norm_add_le _ _).trans ?_
    push_cast
    linarith

/-- Distance of the points from the line through two consecutive ones. -/
theorem leg_deviation {A : ℝ} {n : ℕ} {x : ℕ → E}
    (hA : ∀ j, j + 2 ≤ n → ‖x j + x (j + 2) - (2 : ℝ) • x (j + 1)‖ ≤ A) {j k : ℕ}
    (hj : j + 1 ≤ n) (hk : k ≤ n) :
    ‖x k - (x j + ((k : ℝ) - j) • (x (j + 1) - x j))‖
      ≤ ((k : ℝ) - j) * ((k : ℝ) - j - 1) / 2 * A := by
  rcases Nat.le_total j k with h | h
  · obtain ⟨m, rfl⟩ := Nat.exists_eq_add_of_le h
    clear h
    induction m with
    | zero => simp
    | succ m ih =>
      have h1 := ih (by omega)
      have h2 := first_difference hA j m (by omega)
      have e : x (j + (m + 1)) - (x j + (((j + (m + 1) : ℕ) : ℝ) - j) • (x (j + 1) - x j))
          = (x (j + m) - (x j + (((j + m : ℕ) : ℝ) - j) • (x (j + 1) - x j)))
            + ((x (j + m + 1) - x (j + m)) - (x (j + 1) - x j)) := by
        rw [show j + (m + 1) = j + m + 1 by omega]
        push_cast
        module
      rw [e]
      refine (norm_add_le _ _).trans ((add_le_add h1 h2).trans (le_of_eq ?_))
      push_cast
      ring
  · obtain ⟨m, rfl⟩ := Nat.exists_eq_add_of_le h
    clear h hk
    induction m generalizing k with
    | zero => simp
    | succ m ih =>
      have h1 := ih (k := k + 1) (by omega)
      have h2 := first_difference hA k (m + 1) (by omega)
      rw [show k + 1 + m = k + (m + 1) by omega] at h1
      have e : x k - (x (k + (m + 1)) + ((k : ℝ) - ((k + (m + 1) : ℕ) : ℝ))
            • (x (k + (m + 1) + 1) - x (k + (m + 1))))
          = (x (k + 1) - (x (k + (m + 1)) + (((k + 1 : ℕ) : ℝ) - ((k + (m + 1) : ℕ) : ℝ))
            • (x (k + (m + 1) + 1) - x (k + (m + 1)))))
            + ((x (k + (m + 1) + 1) - x (k + (m + 1))) - (x (k + 1) - x k)) := by
        push_cast
        module
      rw [e]
      refine (norm_add_le _ _).trans ((add_le_add h1 h2).trans (le_of_eq ?_))
      push_cast
      ring

/-- A Bernstein sum and the polygon of its coefficients. -/
theorem bernstein_polygon {A : ℝ} {n : ℕ} {x : ℕ → E}
    (hA : ∀ j, j + 2 ≤ n → ‖x j + x (j + 2) - (2 : ℝ) • x (j + 1)‖ ≤ A) {j : ℕ} (hj : j + 1 ≤ n)
    {l t : ℝ} (ht : n * t = j + l) (t0 : 0 ≤ t) (t1 : t ≤ 1) :
    ‖∑ k ∈ Finset.range (n + 1), bernstein n k t • x k - ((1 - l) • x j + l • x (j + 1))‖
      ≤ (n * t * (1 - t) - l * (1 - l)) / 2 * A := by
  have hs := bernstein_sum n t
  have hl := bernstein_linear n t
  have h2 := bernstein_second n t
  have e : ∑ k ∈ Finset.range (n + 1), bernstein n k t • x k - ((1 - l) • x j + l • x (j + 1))
      = ∑ k ∈ Finset.range (n + 1), bernstein n k t
        • (x k - (x j + ((k : ℝ) - j) • (x (j + 1) - x j))) := by
    have e1 : ∀ k ∈ Finset.range (n + 1), bernstein n k t
          • (x k - (x j + ((k : ℝ) - j) • (x (j + 1) - x j)))
        = bernstein n k t • x k - (bernstein n k t • (x j - (j : ℝ) • (x (j + 1) - x j))
          + (bernstein n k t * k) • (x (j + 1) - x j)) := by
      intro k _
      module
    rw [Finset.sum_congr rfl e1, Finset.sum_sub_distrib, Finset.sum_add_distrib, ← Finset.sum_smul,
      ← Finset.sum_smul, hs, hl, ht]
    congr 1
    module
  rw [e]
  have e2 : (n * t * (1 - t) - l * (1 - l)) / 2 * A
      = ∑ k ∈ Finset.range (n + 1), bernstein n k t * (((k : ℝ) - j) * ((k : ℝ) - j - 1) / 2 * A) := by
    have e1 : ∀ k ∈ Finset.range (n + 1),
        bernstein n k t * (((k : ℝ) - j) * ((k : ℝ) - j - 1) / 2 * A)
        = (bernstein n k t * (k : ℝ) ^ 2) * (A / 2) - (bernstein n k t * k) * ((2 * j + 1) * (A / 2))
          + bernstein n k t * (j * (j + 1) * (A / 2)) := by
      intro k _
      ring
    rw [Finset.sum_congr rfl e1, Finset.sum_add_distrib, Finset.sum_sub_distrib, ← Finset.sum_mul,
      ← Finset.sum_mul, ← Finset.sum_mul, hs, hl, h2, ht]
    ring
  rw [e2]
  refine (norm_sum_le _ _).trans (Finset.sum_le_sum fun k hk => ?_)
  rw [norm_smul, Real.norm_of_nonneg (bernstein_nonneg t0 t1)]
  exact mul_le_mul_of_nonneg_left (leg_deviation hA hj (Nat.lt_succ_iff.1 (Finset.mem_range.1 hk)))
    (bernstein_nonneg t0 t1)

end Norm

variable {P : Type} [Point ℝ P] [LawfulPoint P] {N : ℕ}

/-- A bound on the second differences of the control points. -/
def SecondDifferences (b : Bezier P N) (A : ℝ) : Prop :=
  ∀ k (h : k + 2 < N), pdist (b.control_points ⟨k, by omega⟩ + b.control_points ⟨k + 2, h⟩)
    (b.control_points ⟨k + 1, by omega⟩ + b.control_points ⟨k + 1, by omega⟩) ≤ A

theorem secondDifferences_iff (b : Bezier P N) (A : ℝ) : SecondDifferences b A ↔
    ∀ j, j + 2 ≤ N - 1 → ‖toE (extend b.control_points j) + toE (extend b.control_points (j + 2))
        - (2 : ℝ) • toE (extend b.control_points (j + 1))‖ ≤ A := by
  constructor
  · intro hA j hj
    have := hA j (by omega)
    rw [pdist_eq_norm, toE_add, toE_add, ← two_smul ℝ] at this
    rw [extend_lt _ (show j < N by omega), extend_lt _ (show j + 1 < N by omega),
      extend_lt _ (show j + 2 < N by omega)]
    exact this
  · intro hA j hj
    have := hA j (by omega)
    rw [extend_lt _ (show j < N by omega), extend_lt _ (show j + 1 < N by omega),
      extend_lt _ (show j + 2 < N by omega)] at this
    rw [pdist_eq_norm, toE_add, toE_add, ← two_smul ℝ]
    exact this

/-- **C135**: at `t = (j + l) / n` (`n = N - 1` the degree) the curve is within
`(n·t·(1 - t) - l·(1 - l)) / 2 · A` of the point `(1 - l)·p[j] + l·p[j+1]` of the control polygon, `A`
bounding the second differences of the control points. -/
theorem C135_polygon (b : Bezier P N) {A : ℝ} (hA : SecondDifferences b A) {j : ℕ} (hj : j + 1 < N)
    {l t : ℝ} (l0 : 0 ≤ l) (l1 : l ≤ 1) (ht : t = (j + l) / (N - 1 : ℕ)) :
    ∃ r, b.eval t = some r ∧
      pdist r (b.control_points ⟨j, by omega⟩ * (1 - l) + b.control_points ⟨j + 1, hj⟩ * l)
        ≤ ((N - 1 : ℕ) * t * (1 - t) - l * (1 - l)) / 2 * A := by
  have hN : 1 ≤ N := by omega
  have n0 : (0 : ℝ) < (N - 1 : ℕ) := by exact_mod_cast (by omega : 0 < N - 1)
  have hjn : (j : ℝ) + 1 ≤ (N - 1 : ℕ) := by exact_mod_cast (by omega : j + 1 ≤ N - 1)
  have hnt : ((N - 1 : ℕ) : ℝ) * t = j + l := by rw [ht]; field_simp
  have t0 : 0 ≤ t := by rw [ht]; positivity
  have t1 : t ≤ 1 := by rw [ht, div_le_one n0]; linarith
  obtain ⟨r, hr, hc⟩ := C30_eval b hN t
  refine ⟨r, hr, ?_⟩
  have key := bernstein_polygon ((secondDifferences_iff b A).1 hA) (show j + 1 ≤ N - 1 by omega) hnt
    t0 t1
  have er : toE r = ∑ k ∈ Finset.range (N - 1 + 1), bernstein (N - 1) k t
      • toE (extend b.control_points k) := by
    ext i
    rw [toE_apply, hc, bezierCoord]
    have : ∀ s : Finset ℕ, ∀ f : ℕ → EuclideanSpace ℝ (Fin (Point.dim P)),
        (∑ k ∈ s, f k) i = ∑ k ∈ s, f k i := fun s f => by
      induction s using Finset.induction_on with
      | empty => rfl
      | insert a s ha ih => rw [Finset.sum_insert ha, Finset.sum_insert ha, ← ih]; rfl
    rw [this, show N - 1 + 1 = N by omega,
      ← Fin.sum_univ_eq_sum_range (fun k => (bernstein (N - 1) k t
        • toE (extend b.control_points k)) i) N]
    refine Finset.sum_congr rfl fun k _ => ?_
    rw [extend_lt _ k.2]
    rfl
  rw [pdist_eq_norm, er, toE_add, toE_mul, toE_mul]
  rw [extend_lt _ (show j < N by omega), extend_lt _ hj] at key
  exact key

/-- **C135**: so curve and control polygon are nowhere further apart than `n·A / 8`: every point of
the curve is that close to the polygon and every point of the polygon that close to the curve. -/
theorem C135_hausdorff (b : Bezier P N) (hN : 2 ≤ N) {A : ℝ} (hA0 : 0 ≤ A)
    (hA : SecondDifferences b A) :
    (∀ t : ℝ, 0 ≤ t → t ≤ 1 → ∃ r, b.eval t = some r ∧ ∃ (j : ℕ) (hj : j + 1 < N) (l : ℝ),
      0 ≤ l ∧ l ≤ 1 ∧
      pdist r (b.control_points ⟨j, by omega⟩ * (1 - l) + b.control_points ⟨j + 1, hj⟩ * l)
        ≤ (N - 1 : ℕ) * A / 8) ∧
    (∀ (j : ℕ) (hj : j + 1 < N) (l : ℝ), 0 ≤ l → l ≤ 1 → ∃ t : ℝ, 0 ≤ t ∧ t ≤ 1 ∧
      ∃ r, b.eval t = some r ∧
      pdist r (b.control_points ⟨j, by omega⟩ * (1 - l) + b.control_points ⟨j + 1, hj⟩ * l)
        ≤ (N - 1 : ℕ) * A / 8) := by
  have n0 : (0 : ℝ) < (N - 1 : ℕ) := by exact_mod_cast (by omega : 0 < N - 1)
  have hbound : ∀ {l t : ℝ}, 0 ≤ l → l ≤ 1 →
      ((N - 1 : ℕ) * t * (1 - t) - l * (1 - l)) / 2 * A ≤ (N - 1 : ℕ) * A / 8 := by
    intro l t l0 l1
    have h1 : ((N - 1 : ℕ) : ℝ) * t * (1 - t) ≤ (N - 1 : ℕ) / 4 := by
      nlinarith [mul_nonneg n0.le (sq_nonneg (t - 1 / 2))]
    have h2 : 0 ≤ l * (1 - l) := mul_nonneg l0 (by linarith)
    have : (((N - 1 : ℕ) : ℝ) * t * (1 - t) - l * (1 - l)) / 2 ≤ (N - 1 : ℕ) / 8 := by linarith
    calc _ ≤ ((N - 1 : ℕ) : ℝ) / 8 * A := mul_le_mul_of_nonneg_right this hA0
      _ = _ := by ring
  constructor
  · intro t t0 t1
    obtain ⟨j, hj, l, l0, l1, e⟩ : ∃ (j : ℕ) (_ : j + 1 < N) (l : ℝ), 0 ≤ l ∧ l ≤ 1 ∧
        t = (j + l) / (N - 1 : ℕ) := by
      rcases eq_or_lt_of_le t1 with rfl | ht
      · refine ⟨N - 2, by omega, 1, by norm_num, le_rfl, ?_⟩
        rw [eq_div_iff n0.ne', one_mul]
        exact_mod_cast (by omega : N - 1 = N - 2 + 1)
      · have h0 : 0 ≤ ((N - 1 : ℕ) : ℝ) * t := by positivity
        refine ⟨⌊((N - 1 : ℕ) : ℝ) * t⌋₊, ?_, (N - 1 : ℕ) * t - ⌊((N - 1 : ℕ) : ℝ) * t⌋₊, ?_, ?_, ?_⟩
        · have : ⌊((N - 1 : ℕ) : ℝ) * t⌋₊ < N - 1 := by
            rw [Nat.floor_lt h0]
            nlinarith
          omega
        · have := Nat.floor_le h0
          linarith
        · have := Nat.lt_floor_add_one (((N - 1 : ℕ) : ℝ) * t)
          linarith
        · rw [eq_div_iff n0.ne']
          ring
    obtain ⟨r, hr, h⟩ := C135_polygon b hA hj l0 l1 e
    exact ⟨r, hr, j, hj, l, l0, l1, h.trans (hbound l0 l1)⟩
  · intro j hj l l0 l1
    obtain ⟨r, hr, h⟩ := C135_polygon b hA hj l0 l1 rfl
    have hjn : (j : ℝ) + 1 ≤ (N - 1 : ℕ) := by exact_mod_cast (by omega : j + 1 ≤ N - 1)
    refine ⟨_, by positivity, ?_, r, hr, h.trans (hbound l0 l1)⟩
    rw [div_le_one n0]
    linarith

/-- **C135**: halving divides the bound by 4.  The control polygons of the `2^k` parts are within
`n·A / (8·4^k)` of the parts. -/
theorem C135_halving (b : Bezier P N) (hN : 1 ≤ N) {A : ℝ} (hA : SecondDifferences b A) (k : ℕ) :
    CutInto (fun q t => q.split t) b (pieces Bezier.halve k b) ∧
    ∀ q ∈ pieces Bezier.halve k b, SecondDifferences q (A / 4 ^ k) := by
  refine ⟨cutInto_pieces Bezier.halve_spec k b, ?_⟩
  induction k generalizing b A with
  | zero =>
    intro q hq
    simp only [pieces, List.mem_singleton] at hq
    subst hq
    simpa using hA
  | succ k ih =>
    have h := (secondDifferences_iff b A).1 hA
    have hX := toE_cas_succ (extend b.control_points) (1 / 2 : ℝ)
    have hrow := second_difference_row (t := 1 / 2) (n := N - 1)
      (X := fun m j => toE (cas (extend b.control_points) (1 / 2 : ℝ) m j))
      (by norm_num) (by norm_num) hX h
    have hq := b.halve_spec
    rw [bezier_split_cas, Option.some.injEq] at hq
    have h12 : SecondDifferences b.halve.1 (A / 4) ∧ SecondDifferences b.halve.2 (A / 4) := by
      rw [secondDifferences_iff, secondDifferences_iff, ← hq]
      constructor
      · intro j hj
        have h1 := (second_difference_parts (t := 1 / 2)
          (X := fun m j => toE (cas (extend b.control_points) (1 / 2 : ℝ) m j)) hX j 0).1
        rw [extend_lt _ (show j < N by omega), extend_lt _ (show j + 1 < N by omega),
          extend_lt _ (show j + 2 < N by omega)]
        dsimp only
        rw [h1, norm_smul, Real.norm_of_nonneg (by positivity)]
        have := hrow j 0 (by omega)
        linarith
      · intro j hj
        have h1 := (second_difference_parts (t := 1 / 2)
          (X := fun m j => toE (cas (extend b.control_points) (1 / 2 : ℝ) m j)) hX
            (N - 1 - (j + 2)) j).2
        rw [extend_lt _ (show j < N by omega), extend_lt _ (show j + 1 < N by omega),
          extend_lt _ (show j + 2 < N by omega)]
        dsimp only
        rw [show N - 1 - j = N - 1 - (j + 2) + 2 by omega,
          show N - 1 - (j + 1) = N - 1 - (j + 2) + 1 by omega, h1, norm_smul,
          Real.norm_of_nonneg (by positivity)]
        have := hrow (N - 1 - (j + 2)) j (by omega)
        linarith
    intro q hq'
    have e : A / 4 ^ (k + 1) = A / 4 / 4 ^ k := by
      rw [pow_succ]
      field_simp
    rw [e]
    rw [pieces, List.mem_append] at hq'
    rcases hq' with hq' | hq'
    · exact ih b.halve.1 h12.1 q hq'
    · exact ih b.halve.2 h12.2 q hq'

/-- **C135** for quadratics: on the first half the distance at the same parameter is exactly `t²` times
the second difference, so the bound of `C135_polygon` is attained. -/
theorem C135_quadratic (q : QuadraticBezier P) (t : ℝ) :
    pdist (q.eval t) (q.start * (1 - 2 * t) + q.ctrl * (2 * t))
      = t ^ 2 * pdist (q.start + q.end_) (q.ctrl + q.ctrl) := by
  have e : toE (q.eval t) - toE (q.start * (1 - 2 * t) + q.ctrl * (2 * t))
      = (t ^ 2) • (toE (q.start + q.end_) - toE (q.ctrl + q.ctrl)) := by
    ext i
    simp only [PiLp.sub_apply, PiLp.smul_apply, toE_apply, C10_eval, coord_add, coord_mul,
      smul_eq_mul]
    ring
  rw [pdist_eq_norm, e, norm_smul, Real.norm_of_nonneg (sq_nonneg t), pdist_eq_norm]

/-- **C135** for cubics: every point of the curve is within `3·A / 8` of one of the three legs, `A`
being the longer of the two second differences. -/
theorem C135_cubic (c : CubicBezier P) {A : ℝ} (hA0 : 0 ≤ A)
    (h1 : pdist (c.start + c.ctrl2) (c.ctrl1 + c.ctrl1) ≤ A)
    (h2 : pdist (c.ctrl1 + c.end_) (c.ctrl2 + c.ctrl2) ≤ A) (t : ℝ) (t0 : 0 ≤ t) (t1 : t ≤ 1) :
    ∃ l : ℝ, 0 ≤ l ∧ l ≤ 1 ∧
      (pdist (c.eval t) (c.start * (1 - l) + c.ctrl1 * l) ≤ 3 * A / 8 ∨
       pdist (c.eval t) (c.ctrl1 * (1 - l) + c.ctrl2 * l) ≤ 3 * A / 8 ∨
       pdist (c.eval t) (c.ctrl2 * (1 - l) + c.end_ * l) ≤ 3 * A / 8) := by
  have hA : SecondDifferences (Bezier.new ![c.start, c.ctrl1, c.ctrl2, c.end_]) A := by
    intro k hk
    have : k + 2 < 4 := hk
    obtain rfl | rfl : k = 0 ∨ k = 1 := by omega
    · exact h1
    · exact h2
  obtain ⟨r, hr, j, hj, l, l0, l1, h⟩ := (C135_hausdorff _ (by norm_num) hA0 hA).1 t t0 t1
  have hr' := C32_cubic_eval c.start c.ctrl1 c.ctrl2 c.end_ t
  rw [hr] at hr'
  have hr'' : r = c.eval t := Option.some.inj hr'
  subst hr''
  norm_num at h
  refine ⟨l, l0, l1, ?_⟩
  have : j + 1 < 4 := hj
  obtain rfl | rfl | rfl : j = 0 ∨ j = 1 ∨ j = 2 := by omega
  · exact Or.inl h
  · exact Or.inr (Or.inl h)
  · exact Or.inr (Or.inr h)

/-- The curve with control points (0,0), (1,1), (2,0): second difference 2, and at `t = 1/2` the curve
is `n·A / 8` away from the polygon at the same parameter, which is the middle control point. -/
example : SecondDifferences (Bezier.new ![pt2 0 0, pt2 1 1, pt2 2 0]) 2 ∧
    pdist ((QuadraticBezier.new (pt2 0 0) (pt2 1 1) (pt2 2 0)).eval (1 / 2 : ℝ))
      (pt2 0 0 * (1 - 2 * (1 / 2 : ℝ)) + pt2 1 1 * (2 * (1 / 2 : ℝ))) = ((3 - 1 : ℕ) : ℝ) * 2 / 8 := by
  have e : pdist (pt2 0 0 + pt2 2 0) (pt2 1 1 + pt2 1 1) = 2 := by
    simp only [pdist, show Point.dim (PointN ℝ 2) = 2 from rfl, Finset.sum_range_succ,
      Finset.sum_range_zero, coord_add, coord_pt2_0, coord_pt2_1]
    rw [show (0 : ℝ) + (0 + 2 - (1 + 1)) ^ 2 + (0 + 0 - (1 + 1)) ^ 2 = 2 ^ 2 by norm_num,
      Real.sqrt_sq (by norm_num)]
  refine ⟨?_, ?_⟩
  · intro k hk
    have : k = 0 := by
      have : k + 2 < 3 := hk
      omega
    subst this
    exact e.le
  · have h := C135_quadratic (QuadraticBezier.new (pt2 0 0) (pt2 1 1) (pt2 2 0)) (1 / 2)
    refine h.trans ?_
    simp only [QuadraticBezier.new]
    rw [e]
    norm_num

end Stroke
