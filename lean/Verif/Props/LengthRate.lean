import Verif.Props.LengthBounds
import Verif.Props.Workarounds

set_option linter.unusedSectionVars false

/-!
# How fast the arc length converges (C142)

C39 says that `arclen(n)` converges to the arc length, and C122 that the polygons and chords of a
curve halved `n` times are within a multiple of `1 / 2^n`.  For curves whose control polygon keeps
advancing in some direction (by at least `σ` per leg) both rates are better than that: the gap of the
halved curve is at most `N(N-1)(N-2)/24 · A²/σ / 4^n`, and the polyline through `n` equal steps of the
parameter is short by at most `N(N-1)(N-2)/24 · A²/σ / n²`, where `A` bounds the second differences
of the control points.  `arclen(n)` leaves out the first chord, and that alone makes it short by at
least `(N-1) σ / n`.
-/

namespace Stroke

section Norm
variable {E : Type*} [NormedAddCommGroup E] [InnerProductSpace ℝ E]

theorem sum_pairs_sq (d : ℕ → E) (n : ℕ) :
    ∑ j ∈ Finset.range n, ∑ k ∈ Finset.range n, ‖d j - d k‖ ^ 2
      = 2 * n * ∑ k ∈ Finset.range n, ‖d k‖ ^ 2 - 2 * ‖∑ k ∈ Finset.range n, d k‖ ^ 2 := by
  have h : ∀ j k, ‖d j - d k‖ ^ 2 = ‖d j‖ ^ 2 - 2 * inner ℝ (d j) (d k) + ‖d k‖ ^ 2 :=
    fun j k => norm_sub_sq_real _ _
  simp only [h, Finset.sum_add_distrib, Finset.sum_sub_distrib, Finset.sum_const, Finset.card_range,
    nsmul_eq_mul, ← Finset.mul_sum]
  rw [← real_inner_self_eq_norm_sq (∑ k ∈ Finset.range n, d k), sum_inner]
  simp only [inner_sum]
  ring

theorem sum_range_cast (n : ℕ) : ∑ k ∈ Finset.range n, (k : ℝ) = n * (n - 1) / 2 := by
  induction n with
  | zero => simp
  | succ n ih => rw [Finset.sum_range_succ, ih]; push_cast; ring

theorem sum_range_sq (n : ℕ) : ∑ k ∈ Finset.range n, (k : ℝ) ^ 2 = n * (n - 1) * (2 * n - 1) / 6 := by
  induction n with
  | zero => simp
  | succ n ih => rw [Finset.sum_range_succ, ih]; push_cast; ring

theorem sum_pairs_index (n : ℕ) :
    ∑ j ∈ Finset.range n, ∑ k ∈ Finset.range n, ((j : ℝ) - k) ^ 2 = n ^ 2 * (n ^ 2 - 1) / 6 := by
  have h : ∀ j k : ℝ, (j - k) ^ 2 = j ^ 2 - 2 * (j * k) + k ^ 2 := fun j k => by ring
  simp only [h, Finset.sum_add_distrib, Finset.sum_sub_distrib, Finset.sum_const, Finset.card_range,
    nsmul_eq_mul, ← Finset.mul_sum, ← Finset.sum_mul, sum_range_cast, sum_range_sq]
  ring

/-- Legs that differ little: the polygon is hardly longer than its chord. -/
theorem polygon_sub_chord_sq {A V : ℝ} (n : ℕ) (hn : 1 ≤ n) {x : ℕ → E}
    (hA : ∀ j, j + 2 ≤ n → ‖x j + x (j + 2) - (2 : ℝ) • x (j + 1)‖ ≤ A) (hV : 0 < V)
    (hc : n * V ≤ ‖x n - x 0‖) :
    ∑ k ∈ Finset.range n, ‖x (k + 1) - x k‖ - ‖x n - x 0‖
      ≤ n * (n ^ 2 - 1) * A ^ 2 / (24 * V) := by
  have n0 : (0 : ℝ) < n := by exact_mod_cast hn
  set d : ℕ → E := fun k => x (k + 1) - x k with hd
  have tel : ∑ k ∈ Finset.range n, d k = x n - x 0 := Finset.sum_range_sub x n
  have step : ∀ m j, j + m + 1 ≤ n → ‖d (j + m) - d j‖ ≤ m * A := by
    intro m
    induction m with
    | zero => intro j _; simp
    | succ m ih =>
      intro j hj
      have h1 := ih j (by omega)
      have h2 := hA (j + m) (by omega)
      rw [show d (j + (m + 1)) - d j
        = (x (j + m) + x (j + m + 2) - (2 : ℝ) • x (j + m + 1)) + (d (j + m) - d j) by
          simp only [hd]
          rw [show j + (m + 1) + 1 = j + m + 2 by omega, show j + (m + 1) = j + m + 1 by omega]
          module]
      refine (norm_add_le _ _).trans ?_
      push_cast
      linarith
  have pair : ∀ j ∈ Finset.range n, ∀ k ∈ Finset.range n,
      ‖d j - d k‖ ^ 2 ≤ ((j : ℝ) - k) ^ 2 * A ^ 2 := by
    intro j hj k hk
    have hj := Finset.mem_range.1 hj
    have hk := Finset.mem_range.1 hk
    rw [← mul_pow]
    rcases le_total k j with h | h
    · have := step (j - k) k (by omega)
      rw [show k + (j - k) = j by omega, Nat.cast_sub h] at this
      exact pow_le_pow_left₀ (norm_nonneg _) this 2
    · have := step (k - j) j (by omega)
      rw [show j + (k - j) = k by omega, Nat.cast_sub h, norm_sub_rev] at this
      have e : (((j : ℝ) - k) * A) ^ 2 = (((k : ℝ) - j) * A) ^ 2 := by ring
      rw [e]
      exact pow_le_pow_left₀ (norm_nonneg _) this 2
  have tot := (Finset.sum_le_sum fun j hj => Finset.sum_le_sum (pair j hj))
  simp only [← Finset.sum_mul] at tot
  rw [sum_pairs_sq, sum_pairs_index, tel] at tot
  set S := ∑ k ∈ Finset.range n, ‖d k‖ with hS
  set Q := ∑ k ∈ Finset.range n, ‖d k‖ ^ 2 with hQ
  set c := ‖x n - x 0‖ with hcdef
  have c0 : 0 < c := lt_of_lt_of_le (by positivity) hc
  -- `‖d‖ c / n ≤ (‖d‖² + c²/n²) / 2`
  have amgm : S * c ≤ (n * Q + c ^ 2) / 2 := by
    have : ∀ k ∈ Finset.range n, ‖d k‖ * c ≤ (n * ‖d k‖ ^ 2 + c ^ 2 / n) / 2 := by
      intro k _
      have h := sq_nonneg (n * ‖d k‖ - c)
      have e : (n * ‖d k‖ ^ 2 + c ^ 2 / n) / 2 - ‖d k‖ * c = (n * ‖d k‖ - c) ^ 2 / (2 * n) := by
        field_simp
        ring
      have : 0 ≤ (n * ‖d k‖ - c) ^ 2 / (2 * n) := by positivity
      linarith
    have := Finset.sum_le_sum this
    rw [← Finset.sum_mul, ← Finset.sum_div, Finset.sum_add_distrib, ← Finset.mul_sum, Finset.sum_const,
      Finset.card_range, nsmul_eq_mul, mul_div_cancel₀ _ n0.ne'] at this
    exact this
  have key : (S - c) * c ≤ n ^ 2 * (n ^ 2 - 1) * A ^ 2 / 24 := by
    nlinarith
  have hnn : (0 : ℝ) ≤ n * (n ^ 2 - 1) * A ^ 2 := by
    have : (1 : ℝ) ≤ n := by exact_mod_cast hn
    have : (0 : ℝ) ≤ n ^ 2 - 1 := by nlinarith
    positivity
  calc S - c ≤ n ^ 2 * (n ^ 2 - 1) * A ^ 2 / 24 / c := by rwa [le_div_iff₀ c0]
    _ ≤ n ^ 2 * (n ^ 2 - 1) * A ^ 2 / 24 / (n * V) := by
        apply div_le_div_of_nonneg_left _ (by positivity) hc
        have : (n : ℝ) ^ 2 * (n ^ 2 - 1) * A ^ 2 / 24 = n * (n * (n ^ 2 - 1) * A ^ 2) / 24 := by ring
        rw [this]
        positivity
    _ = n * (n ^ 2 - 1) * A ^ 2 / (24 * V) := by field_simp

/-- Advance along the rows of the triangle. -/
theorem advance_row {t σ : ℝ} (t0 : 0 ≤ t) (t1 : t ≤ 1) {n : ℕ} {X : ℕ → ℕ → E} (w : E)
    (hX : ∀ m j, X (m + 1) j = (1 - t) • X m j + t • X m (j + 1))
    (hw : ∀ j, j + 1 ≤ n → σ ≤ inner ℝ w (X 0 (j + 1) - X 0 j)) (m : ℕ) :
    ∀ j, m + j + 1 ≤ n → σ ≤ inner ℝ w (X m (j + 1) - X m j) := by
  induction m with
  | zero => intro j hj; exact hw j (by omega)
  | succ m ih =>
    intro j hj
    have h1 := ih j (by omega)
    have h2 := ih (j + 1) (by omega)
    rw [show X (m + 1) (j + 1) - X (m + 1) j
        = (1 - t) • (X m (j + 1) - X m j) + t • (X m (j + 1 + 1) - X m (j + 1)) by
      rw [hX, hX]; module, inner_add_right, real_inner_smul_right, real_inner_smul_right]
    nlinarith

end Norm


section Curves
variable {P : Type} [Point ℝ P] [LawfulPoint P] {N : ℕ}

/-- Going from `x` to `y` advances by at least `σ` in the direction `u`. -/
def AdvancesBy (u : ℕ → ℝ) (σ : ℝ) (x y : P) : Prop :=
  σ ≤ ∑ i ∈ Finset.range (Point.dim P), u i * (coord y i - coord x i)

/-- The direction `u` as a vector. -/
noncomputable def dirE (P : Type) [Point ℝ P] (u : ℕ → ℝ) : EuclideanSpace ℝ (Fin (Point.dim P)) :=
  WithLp.toLp 2 fun i => u i

theorem inner_dirE (u : ℕ → ℝ) (x y : P) : inner ℝ (dirE P u) (toE y - toE x)
    = ∑ i ∈ Finset.range (Point.dim P), u i * (coord y i - coord x i) := by
  rw [← Fin.sum_univ_eq_sum_range (fun i => u i * (coord y i - coord x i)), PiLp.inner_apply]
  refine Finset.sum_congr rfl fun i _ => ?_
  simp [dirE, toE, mul_comm]

theorem norm_dirE (u : ℕ → ℝ) (hu : ∑ i ∈ Finset.range (Point.dim P), u i ^ 2 ≤ 1) :
    ‖dirE P u‖ ≤ 1 := by
  rw [EuclideanSpace.norm_eq, Real.sqrt_le_one]
  rw [← Fin.sum_univ_eq_sum_range (fun i => u i ^ 2)] at hu
  simpa [dirE] using hu

/-- Small second differences, and every leg of the polygon advances. -/
def Tame (w : EuclideanSpace ℝ (Fin (Point.dim P))) (q : Bezier P N) (A σ : ℝ) : Prop :=
  SecondDiffsAtMost q A ∧ ∀ j, j + 1 ≤ N - 1 →
    σ ≤ inner ℝ w (toE (extend q.control_points (j + 1)) - toE (extend q.control_points j))

theorem Tame.split {w : EuclideanSpace ℝ (Fin (Point.dim P))} {q l r : Bezier P N} {A σ t : ℝ}
    (h : Tame w q A σ) (t0 : 0 ≤ t) (t1 : t ≤ 1) (hs : q.split t = some (l, r)) :
    Tame w l (t ^ 2 * A) (t * σ) ∧ Tame w r ((1 - t) ^ 2 * A) ((1 - t) * σ) := by
  have hX := toE_cas_succ (extend q.control_points) t
  have hrow := second_difference_row (n := N - 1)
    (X := fun m j => toE (cas (extend q.control_points) t m j)) t0 t1 hX h.1
  have hadv := advance_row (n := N - 1)
    (X := fun m j => toE (cas (extend q.control_points) t m j)) t0 t1 w hX h.2
  rw [bezier_split_cas, Option.some.injEq, Prod.mk.injEq] at hs
  obtain ⟨rfl, rfl⟩ := hs
  refine ⟨⟨?_, ?_⟩, ?_, ?_⟩
  · intro j hj
    have h1 := (second_difference_parts
      (X := fun m j => toE (cas (extend q.control_points) t m j)) hX j 0).1
    rw [extend_lt _ (show j < N by omega), extend_lt _ (show j + 1 < N by omega),
      extend_lt _ (show j + 2 < N by omega)]
    dsimp only
    rw [h1, norm_smul, Real.norm_of_nonneg (by positivity)]
    exact mul_le_mul_of_nonneg_left (hrow j 0 (by omega)) (by positivity)
  · intro j hj
    rw [extend_lt _ (show j < N by omega), extend_lt _ (show j + 1 < N by omega)]
    dsimp only
    rw [hX j 0, show (1 - t) • toE (cas (extend q.control_points) t j 0)
        + t • toE (cas (extend q.control_points) t j (0 + 1)) - toE (cas (extend q.control_points) t j 0)
        = t • (toE (cas (extend q.control_points) t j (0 + 1))
          - toE (cas (extend q.control_points) t j 0)) by module, real_inner_smul_right]
    exact mul_le_mul_of_nonneg_left (hadv j 0 (by omega)) t0
  · intro j hj
    have h1 := (second_difference_parts
      (X := fun m j => toE (cas (extend q.control_points) t m j)) hX (N - 1 - (j + 2)) j).2
    rw [extend_lt _ (show j < N by omega), extend_lt _ (show j + 1 < N by omega),
      extend_lt _ (show j + 2 < N by omega)]
    dsimp only
    rw [show N - 1 - j = N - 1 - (j + 2) + 2 by omega,
      show N - 1 - (j + 1) = N - 1 - (j + 2) + 1 by omega, h1, norm_smul,
      Real.norm_of_nonneg (by positivity)]
    exact mul_le_mul_of_nonneg_left (hrow (N - 1 - (j + 2)) j (by omega)) (by positivity)
  · intro j hj
    rw [extend_lt _ (show j < N by omega), extend_lt _ (show j + 1 < N by omega)]
    dsimp only
    rw [show N - 1 - j = N - 1 - (j + 1) + 1 by omega, hX (N - 1 - (j + 1)) j,
      show ∀ x y : EuclideanSpace ℝ (Fin (Point.dim P)), y - ((1 - t) • x + t • y)
        = (1 - t) • (y - x) from fun x y => by module, real_inner_smul_right]
    exact mul_le_mul_of_nonneg_left (hadv (N - 1 - (j + 1)) j (by omega)) (by linarith)

theorem Tame.chord {w : EuclideanSpace ℝ (Fin (Point.dim P))} {q : Bezier P N} {A σ : ℝ}
    (hw : ‖w‖ ≤ 1) (hN : 1 ≤ N) (h : Tame w q A σ) :
    ((N - 1 : ℕ) : ℝ) * σ ≤ pdist (q.control_points ⟨0, hN⟩) (q.control_points ⟨N - 1, by omega⟩) := by
  rw [bezier_chord_eq]
  set x : ℕ → _ := fun j => toE (extend q.control_points j) with hx
  have : ((N - 1 : ℕ) : ℝ) * σ ≤ inner ℝ w (x (N - 1) - x 0) := by
    rw [← Finset.sum_range_sub x (N - 1), inner_sum]
    have := Finset.card_nsmul_le_sum (Finset.range (N - 1)) (fun k => inner ℝ w (x (k + 1) - x k)) σ
      (fun k hk => h.2 k (by have := Finset.mem_range.1 hk; omega))
    simpa using this
  refine this.trans ((real_inner_le_norm _ _).trans ?_)
  have := norm_nonneg (x (N - 1) - x 0)
  nlinarith

theorem Tame.gap {w : EuclideanSpace ℝ (Fin (Point.dim P))} {q : Bezier P N} {A σ : ℝ}
    (hw : ‖w‖ ≤ 1) (hN : 1 ≤ N) (hσ : 0 < σ) (h : Tame w q A σ) :
    controlPolygonLength q.control_points
      - pdist (q.control_points ⟨0, hN⟩) (q.control_points ⟨N - 1, by omega⟩)
      ≤ (N : ℝ) * (N - 1) * (N - 2) / 24 * (A ^ 2 / σ) := by
  have hc := h.chord hw hN
  rw [controlPolygonLength_eq]
  rw [bezier_chord_eq] at hc ⊢
  rcases Nat.lt_or_ge N 2 with h2 | h2
  · obtain rfl : N = 1 := by omega
    simp
  · have := polygon_sub_chord_sq (N - 1) (by omega) (x := fun j => toE (extend q.control_points j))
      h.1 hσ hc
    refine this.trans (le_of_eq ?_)
    rw [Nat.cast_sub hN]
    push_cast
    field_simp
    ring

/-- **C142**, the halving half: when the legs of the control polygon advance by at least `σ` in some
direction, `n` halvings bring the two bounds of C122 within a multiple of `1 / 4^n`. -/
theorem C142_halving (b : Bezier P N) (hN : 1 ≤ N) (A : ℝ)
    (hA : ∀ k (h : k + 2 < N), pdist (b.control_points ⟨k, by omega⟩ + b.control_points ⟨k + 2, h⟩)
      (b.control_points ⟨k + 1, by omega⟩ + b.control_points ⟨k + 1, by omega⟩) ≤ A)
    (u : ℕ → ℝ) (hu : ∑ i ∈ Finset.range (Point.dim P), u i ^ 2 ≤ 1) (σ : ℝ) (hσ : 0 < σ)
    (hadv : ∀ k (h : k + 1 < N), AdvancesBy u σ (b.control_points ⟨k, by omega⟩) (b.control_points ⟨k + 1, h⟩))
    (n : ℕ) :
    CutInto (fun q t => q.split t) b (pieces Bezier.halve n b) ∧
    ((pieces Bezier.halve n b).map fun p => controlPolygonLength p.control_points).sum
      - ((pieces Bezier.halve n b).map fun p =>
          pdist (p.control_points ⟨0, hN⟩) (p.control_points ⟨N - 1, by omega⟩)).sum
      ≤ (N : ℝ) * (N - 1) * (N - 2) / 24 * (A ^ 2 / σ) / 4 ^ n := by
  refine ⟨cutInto_pieces Bezier.halve_spec n b, ?_⟩
  rw [sum_map_sub]
  have hT : Tame (dirE P u) b A σ := by
    refine ⟨.of_pdist hA, fun j hj => ?_⟩
    rw [inner_dirE, extend_lt _ (show j < N by omega), extend_lt _ (show j + 1 < N by omega)]
    exact hadv j (by omega)
  have hw := norm_dirE (P := P) u hu
  clear hA hadv hu
  generalize dirE P u = w at *
  induction n generalizing b A σ with
  | zero => simpa [pieces] using hT.gap hw hN hσ
  | succ n ih =>
    obtain ⟨h1, h2⟩ := hT.split (by norm_num) (by norm_num) b.halve_spec
    have e1 := ih _ _ _ (by positivity) h1
    have e2 := ih _ _ _ (by linarith) h2
    rw [pieces, List.map_append, List.sum_append]
    refine (add_le_add e1 e2).trans (le_of_eq ?_)
    rw [pow_succ]
    field_simp
    ring

/-- The equal-step polyline of a tame curve is close to its length. -/
theorem Tame.polyline {w : EuclideanSpace ℝ (Fin (Point.dim P))} (hw : ‖w‖ ≤ 1) (hN : 1 ≤ N) (n : ℕ) :
    ∀ (b : Bezier P N) (A σ : ℝ), 0 < σ → Tame w b A σ → ∀ f : ℝ → P, (∀ t, b.eval t = some (f t)) →
    polylineLength (fun i : ℕ => f ((i : ℝ) / ((n + 1 : ℕ) : ℝ))) 0 (n + 1)
      ≤ arcLength (Point.dim P) (fun t i => deriv (fun u => bezierCoord b.controlPoints u i) t) ∧
    arcLength (Point.dim P) (fun t i => deriv (fun u => bezierCoord b.controlPoints u i) t)
      ≤ polylineLength (fun i : ℕ => f ((i : ℝ) / ((n + 1 : ℕ) : ℝ))) 0 (n + 1)
        + (N : ℝ) * (N - 1) * (N - 2) / 24 * (A ^ 2 / σ) / ((n + 1 : ℕ) : ℝ) ^ 2 := by
  have chord : ∀ (b : Bezier P N) (f : ℝ → P), (∀ t, b.eval t = some (f t)) →
      pdist (f 0) (f 1) = pdist (b.control_points ⟨0, hN⟩) (b.control_points ⟨N - 1, by omega⟩) := by
    intro b f hf
    obtain ⟨e0, e1⟩ := C31_endpoints b hN
    rw [hf, Option.some.injEq] at e0 e1
    rw [e0, e1]
  induction n with
  | zero =>
    intro b A σ hσ h f hf
    have e : polylineLength (fun i : ℕ => f ((i : ℝ) / ((0 + 1 : ℕ) : ℝ))) 0 (0 + 1) = pdist (f 0) (f 1) := by
      simp [polylineLength]
    rw [e, chord b f hf]
    have h1 := h.gap hw hN hσ
    have h2 := C71_arc_length b hN
    refine ⟨bezier_chord_le_arc b hN, ?_⟩
    simp only [zero_add, Nat.cast_one, one_pow, div_one]
    linarith
  | succ n ih =>
    intro b A σ hσ h f hf
    have n0 : (0 : ℝ) ≤ n := by positivity
    set m : ℝ := ((n + 1 : ℕ) : ℝ) with hm
    have hm' : m = n + 1 := by rw [hm]; push_cast; ring
    have hM : ((n + 1 + 1 : ℕ) : ℝ) = m + 1 := by rw [hm]; push_cast; ring
    have m0 : 0 < m := by linarith
    rw [hM]
    set t : ℝ := 1 / (m + 1) with ht
    have t0 : 0 < t := by positivity
    have ht1 : 1 - t = m / (m + 1) := by rw [ht]; field_simp; ring
    have t1 : 0 < 1 - t := by rw [ht1]; positivity
    obtain ⟨l, r, hs, hlr⟩ := C33_split b t
    obtain ⟨hl, hr⟩ := h.split t0.le (by linarith) hs
    have hfl : ∀ s, l.eval s = some (f (t * s)) := fun s => by rw [(hlr hN s).1, hf]
    have hfr : ∀ s, r.eval s = some (f (t + (1 - t) * s)) := fun s => by rw [(hlr hN s).2, hf]
    have arc := bezier_arc_add b l r hN t t0.le (by linarith) hs
    have i1 := ih r _ _ (mul_pos t1 hσ) hr _ hfr
    have g1 := hl.gap hw hN (mul_pos t0 hσ)
    have g2 := C71_arc_length l hN
    have g3 := bezier_chord_le_arc l hN
    rw [← chord l _ hfl, mul_zero, mul_one] at g1 g3
    have poly : polylineLength (fun i : ℕ => f ((i : ℝ) / (m + 1))) 0 (n + 1 + 1)
        = pdist (f 0) (f t)
          + polylineLength (fun i : ℕ => f (t + (1 - t) * ((i : ℝ) / m))) 0 (n + 1) := by
      rw [polylineLength_first _ (by omega)]
      congr 1
      · simp [ht]
      · unfold polylineLength
        rw [Finset.sum_Ico_eq_sum_range, Finset.sum_Ico_eq_sum_range]
        refine Finset.sum_congr (by simp) fun k _ => ?_
        have e : ∀ j : ℕ, ((j + 1 : ℕ) : ℝ) / (m + 1) = t + (1 - t) * ((j : ℝ) / m) := by
          intro j
          rw [ht1, ht]
          push_cast
          field_simp
          ring
        simp only [Nat.zero_add]
        rw [show 1 + k = k + 1 by omega, e k, e (k + 1)]
    rw [poly, ← arc]
    refine ⟨by linarith [i1.1], ?_⟩
    set K : ℝ := (N : ℝ) * (N - 1) * (N - 2) / 24
    have e : K * ((t ^ 2 * A) ^ 2 / (t * σ)) + K * (((1 - t) ^ 2 * A) ^ 2 / ((1 - t) * σ)) / m ^ 2
        = K * (A ^ 2 / σ) / (m + 1) ^ 2 := by
      rw [ht1, ht]
      field_simp
      ring
    linarith [i1.2]

theorem tame_of {b : Bezier P N} {A : ℝ}
    (hA : ∀ k (h : k + 2 < N), pdist (b.control_points ⟨k, by omega⟩ + b.control_points ⟨k + 2, h⟩)
      (b.control_points ⟨k + 1, by omega⟩ + b.control_points ⟨k + 1, by omega⟩) ≤ A)
    {u : ℕ → ℝ} {σ : ℝ}
    (hadv : ∀ k (h : k + 1 < N), AdvancesBy u σ (b.control_points ⟨k, by omega⟩) (b.control_points ⟨k + 1, h⟩)) :
    Tame (dirE P u) b A σ := by
  refine ⟨.of_pdist hA, fun j hj => ?_⟩
  rw [inner_dirE, extend_lt _ (show j < N by omega), extend_lt _ (show j + 1 < N by omega)]
  exact hadv j (by omega)

/-- **C142** for curves of any degree: `arclen(n)` with the first chord added falls short of the arc
length by at most a multiple of `1 / n²`, and `arclen(n)` as it stands by at least a multiple of
`1 / n`. -/
theorem C142_arclen (b : Bezier P N) (hN : 1 ≤ N) (A : ℝ)
    (hA : ∀ k (h : k + 2 < N), pdist (b.control_points ⟨k, by omega⟩ + b.control_points ⟨k + 2, h⟩)
      (b.control_points ⟨k + 1, by omega⟩ + b.control_points ⟨k + 1, by omega⟩) ≤ A)
    (u : ℕ → ℝ) (hu : ∑ i ∈ Finset.range (Point.dim P), u i ^ 2 ≤ 1) (σ : ℝ) (hσ : 0 < σ)
    (hadv : ∀ k (h : k + 1 < N), AdvancesBy u σ (b.control_points ⟨k, by omega⟩) (b.control_points ⟨k + 1, h⟩))
    (n : ℕ) (hn : 1 ≤ n) :
    ∃ x p q, b.arclen n = some x ∧ b.eval (0 : ℝ) = some p ∧ b.eval (1 / n : ℝ) = some q ∧
      x + pdist p q
        ≤ arcLength (Point.dim P) (fun t i => deriv (fun u => bezierCoord b.controlPoints u i) t) ∧
      arcLength (Point.dim P) (fun t i => deriv (fun u => bezierCoord b.controlPoints u i) t)
        ≤ x + pdist p q + (N : ℝ) * (N - 1) * (N - 2) / 24 * (A ^ 2 / σ) / n ^ 2 ∧
      x + (N - 1) * σ / n
        ≤ arcLength (Point.dim P) (fun t i => deriv (fun u => bezierCoord b.controlPoints u i) t) := by
  have hT := tame_of hA hadv
  have hw := norm_dirE (P := P) u hu
  obtain ⟨f, hf, ha⟩ := C39_actual b hN
  obtain ⟨m, rfl⟩ : ∃ m, n = m + 1 := ⟨n - 1, by omega⟩
  obtain ⟨h1, h2⟩ := Tame.polyline hw hN m b A σ hσ hT f hf
  rw [polylineLength_first _ (by omega)] at h1 h2
  have n0 : (0 : ℝ) < ((m + 1 : ℕ) : ℝ) := by positivity
  simp only [Nat.cast_zero, zero_div, Nat.cast_one] at h1 h2
  have t1 : 1 / ((m + 1 : ℕ) : ℝ) ≤ 1 := by
    rw [div_le_one n0]; exact_mod_cast hn
  refine ⟨_, f 0, f (1 / ((m + 1 : ℕ) : ℝ)), ha _, hf _, hf _, by linarith, by linarith, ?_⟩
  obtain ⟨l, r, hs, hlr⟩ := C33_split b (1 / ((m + 1 : ℕ) : ℝ))
  have hl := (hT.split (by positivity) t1 hs).1.chord hw hN
  obtain ⟨e0, e1⟩ := C31_endpoints l hN
  rw [(hlr hN _).1, hf, Option.some.injEq] at e0 e1
  rw [← e0, ← e1, mul_zero, mul_one, Nat.cast_sub hN, Nat.cast_one] at hl
  have : ((N : ℝ) - 1) * σ / ((m + 1 : ℕ) : ℝ) = (N - 1) * (1 / ((m + 1 : ℕ) : ℝ) * σ) := by ring
  rw [this]
  linarith

/-- **C142** for quadratic curves. -/
theorem C142_quadratic (q : QuadraticBezier P)
    (u : ℕ → ℝ) (hu : ∑ i ∈ Finset.range (Point.dim P), u i ^ 2 ≤ 1) (σ : ℝ) (hσ : 0 < σ)
    (h1 : AdvancesBy u σ q.start q.ctrl) (h2 : AdvancesBy u σ q.ctrl q.end_) (n : ℕ) (hn : 1 ≤ n) :
    ∃ x, q.arclen n = some x ∧
      x + pdist (q.eval (0 : ℝ)) (q.eval (1 / n : ℝ))
        ≤ arcLength (Point.dim P) (fun t i => coord (q.derivative.eval t) i) ∧
      arcLength (Point.dim P) (fun t i => coord (q.derivative.eval t) i)
        ≤ x + pdist (q.eval (0 : ℝ)) (q.eval (1 / n : ℝ))
          + pdist (q.start + q.end_) (q.ctrl + q.ctrl) ^ 2 / (4 * σ * n ^ 2) ∧
      x + 2 * σ / n ≤ arcLength (Point.dim P) (fun t i => coord (q.derivative.eval t) i) := by
  obtain ⟨x, p, p', hx, hp, hp', k1, k2, k3⟩ := C142_arclen q.generic (by norm_num)
    (pdist (q.start + q.end_) (q.ctrl + q.ctrl))
    (by
      intro k hk
      obtain rfl : k = 0 := by omega
      exact le_rfl) u hu σ hσ
    (by
      intro k hk
      obtain rfl | rfl : k = 0 ∨ k = 1 := by omega
      · exact h1
      · exact h2) n hn
  have he : ∀ t : ℝ, q.generic.eval t = some (q.eval t) := fun t => C32_quadratic_eval q.start q.ctrl q.end_ t
  rw [he, Option.some.injEq] at hp hp'
  rw [q.generic_arc] at k1 k2 k3
  subst hp hp'
  obtain ⟨f, hf, ha⟩ := C39_actual q.generic (by norm_num)
  have hfq : ∀ t, f t = q.eval t := fun t => by
    have := hf t
    rw [he, Option.some.injEq] at this
    exact this.symm
  refine ⟨x, ?_, k1, k2.trans (le_of_eq ?_), le_trans (le_of_eq ?_) k3⟩
  · rw [C15_actual, ← hx, ha n]
    simp only [hfq]
  · push_cast
    congr 1
    field_simp
    ring
  · norm_num

/-- **C142** for cubic curves. -/
theorem C142_cubic (c : CubicBezier P)
    (u : ℕ → ℝ) (hu : ∑ i ∈ Finset.range (Point.dim P), u i ^ 2 ≤ 1) (σ : ℝ) (hσ : 0 < σ)
    (h1 : AdvancesBy u σ c.start c.ctrl1) (h2 : AdvancesBy u σ c.ctrl1 c.ctrl2)
    (h3 : AdvancesBy u σ c.ctrl2 c.end_) (n : ℕ) (hn : 1 ≤ n) :
    ∃ x, c.arclen n = some x ∧
      x + pdist (c.eval (0 : ℝ)) (c.eval (1 / n : ℝ))
        ≤ arcLength (Point.dim P) (fun t i => coord (c.derivative.eval t) i) ∧
      arcLength (Point.dim P) (fun t i => coord (c.derivative.eval t) i)
        ≤ x + pdist (c.eval (0 : ℝ)) (c.eval (1 / n : ℝ))
          + max (pdist (c.start + c.ctrl2) (c.ctrl1 + c.ctrl1))
              (pdist (c.ctrl1 + c.end_) (c.ctrl2 + c.ctrl2)) ^ 2 / (σ * n ^ 2) ∧
      x + 3 * σ / n ≤ arcLength (Point.dim P) (fun t i => coord (c.derivative.eval t) i) := by
  obtain ⟨x, p, p', hx, hp, hp', k1, k2, k3⟩ := C142_arclen c.generic (by norm_num)
    (max (pdist (c.start + c.ctrl2) (c.ctrl1 + c.ctrl1))
      (pdist (c.ctrl1 + c.end_) (c.ctrl2 + c.ctrl2)))
    (by
      intro k hk
      obtain rfl | rfl : k = 0 ∨ k = 1 := by omega
      · exact le_max_left _ _
      · exact le_max_right _ _) u hu σ hσ
    (by
      intro k hk
      obtain rfl | rfl | rfl : k = 0 ∨ k = 1 ∨ k = 2 := by omega
      · exact h1
      · exact h2
      · exact h3) n hn
  have he : ∀ t : ℝ, c.generic.eval t = some (c.eval t) :=
    fun t => C32_cubic_eval c.start c.ctrl1 c.ctrl2 c.end_ t
  rw [he, Option.some.injEq] at hp hp'
  rw [c.generic_arc] at k1 k2 k3
  subst hp hp'
  obtain ⟨f, hf, ha⟩ := C39_actual c.generic (by norm_num)
  have hfc : ∀ t, f t = c.eval t := fun t => by
    have := hf t
    rw [he, Option.some.injEq] at this
    exact this.symm
  refine ⟨x, ?_, k1, k2.trans (le_of_eq ?_), le_trans (le_of_eq ?_) k3⟩
  · rw [C26_actual, ← hx, ha n]
    simp only [hfc]
  · push_cast
    congr 1
    field_simp
    norm_num
  · norm_num

end Curves

/-- The parabola over `(0,0), (1,1), (2,0)`: every leg advances by 1 along the first axis. -/
example (n : ℕ) (hn : 1 ≤ n) :
    ∃ x, (QuadraticBezier.new (pt2 0 0) (pt2 1 1) (pt2 2 0)).arclen n = some x ∧
      arcLength 2 (fun t i => coord ((QuadraticBezier.new (pt2 0 0) (pt2 1 1) (pt2 2 0)).derivative.eval t) i)
        ≤ x + pdist ((QuadraticBezier.new (pt2 0 0) (pt2 1 1) (pt2 2 0)).eval (0 : ℝ))
            ((QuadraticBezier.new (pt2 0 0) (pt2 1 1) (pt2 2 0)).eval (1 / n : ℝ)) + 1 / n ^ 2 := by
  obtain ⟨x, hx, -, h, -⟩ := C142_quadratic (QuadraticBezier.new (pt2 0 0) (pt2 1 1) (pt2 2 0))
    (fun i => if i = 0 then 1 else 0)
    (by simp [show Point.dim (PointN ℝ 2) = 2 from rfl]) 1 one_pos
    (by simp [AdvancesBy, QuadraticBezier.new, show Point.dim (PointN ℝ 2) = 2 from rfl])
    (by norm_num [AdvancesBy, QuadraticBezier.new, show Point.dim (PointN ℝ 2) = 2 from rfl,
      Finset.sum_range_succ]) n hn
  refine ⟨x, hx, h.trans (le_of_eq ?_)⟩
  congr 1
  have : pdist (pt2 0 0 + pt2 2 0) (pt2 1 1 + pt2 1 1) = 2 := by
    simp only [pdist, show Point.dim (PointN ℝ 2) = 2 from rfl, Finset.sum_range_succ,
      Finset.sum_range_zero, coord_add, coord_pt2_0, coord_pt2_1]
    rw [show ((0 : ℝ) + (0 + 2 - (1 + 1)) ^ 2 + (0 + 0 - (1 + 1)) ^ 2) = 2 ^ 2 by norm_num]
    exact Real.sqrt_sq (by norm_num)
  dsimp only [QuadraticBezier.new]
  rw [this]
  have n0 : (n : ℝ) ≠ 0 := by positivity
  field_simp
  norm_num

/-- The cubic over `(0,0), (1,1), (2,1), (3,0)`. -/
example (n : ℕ) (hn : 1 ≤ n) :
    ∃ x, (CubicBezier.new (pt2 0 0) (pt2 1 1) (pt2 2 1) (pt2 3 0)).arclen n = some x ∧
      x + 3 / n ≤ arcLength 2 (fun t i =>
        coord ((CubicBezier.new (pt2 0 0) (pt2 1 1) (pt2 2 1) (pt2 3 0)).derivative.eval t) i) := by
  obtain ⟨x, hx, -, -, h⟩ := C142_cubic (CubicBezier.new (pt2 0 0) (pt2 1 1) (pt2 2 1) (pt2 3 0))
    (fun i => if i = 0 then 1 else 0)
    (by simp [show Point.dim (PointN ℝ 2) = 2 from rfl]) 1 one_pos
    (by simp [AdvancesBy, CubicBezier.new, show Point.dim (PointN ℝ 2) = 2 from rfl])
    (by norm_num [AdvancesBy, CubicBezier.new, show Point.dim (PointN ℝ 2) = 2 from rfl,
      Finset.sum_range_succ])
    (by norm_num [AdvancesBy, CubicBezier.new, show Point.dim (PointN ℝ 2) = 2 from rfl,
      Finset.sum_range_succ]) n hn
  rw [mul_one] at h
  exact ⟨x, hx, h⟩

end Stroke
