import Verif.Props.Subdivision
import Verif.Props.ArcLengthShape
import Verif.Props.ArcLengthSplit

set_option linter.unusedSectionVars false

/-!
# Bounds on the arc length from splitting (C122)

A user who wants the length of a curve to a given accuracy can split it and add up, over the
pieces, the distances between the endpoints (a lower bound) and the lengths of the control polygons
(an upper bound).  Both bounds hold for every way of cutting the curve, each cut makes both of them
better or leaves them alone, and repeated halving makes their difference as small as desired, at a
rate that can be read off the control points.
-/

namespace Stroke

/-! ### The user's program -/

/-- The lists of pieces that a user of the crate can get from a curve by calls of `split(t)` with
`t` in `[0, 1]`: the curve itself, or such a list with one of the pieces replaced by its two parts. -/
inductive CutInto {Q : Type} (split : Q → ℝ → Option (Q × Q)) (q : Q) : List Q → Prop
  | whole : CutInto split q [q]
  | cut {xs ys : List Q} {p l r : Q} {t : ℝ} : CutInto split q (xs ++ p :: ys) → 0 ≤ t → t ≤ 1 →
      split p t = some (l, r) → CutInto split q (xs ++ l :: r :: ys)

/-- `|b| b.split(0.5)`; `split` never panics (C33), so the default is never used. -/
noncomputable def Bezier.halve {P : Type} [Point ℝ P] {N : ℕ} (b : Bezier P N) :
    Bezier P N × Bezier P N := (b.split (1 / 2 : ℝ)).getD (b, b)

/-! ### General facts -/

theorem CutInto.bounds {Q : Type} {split : Q → ℝ → Option (Q × Q)} {chord arc poly : Q → ℝ}
    (hlo : ∀ q, chord q ≤ arc q) (hhi : ∀ q, arc q ≤ poly q)
    (hadd : ∀ q t l r, 0 ≤ t → t ≤ 1 → split q t = some (l, r) → arc l + arc r = arc q)
    {q : Q} {ps : List Q} (h : CutInto split q ps) :
    (ps.map chord).sum ≤ arc q ∧ arc q ≤ (ps.map poly).sum := by
  have hsum : (ps.map arc).sum = arc q := by
    induction h with
    | whole => simp
    | cut _ t0 t1 hs ih =>
      have := hadd _ _ _ _ t0 t1 hs
      simp only [List.map_append, List.map_cons, List.sum_append, List.sum_cons] at ih ⊢
      linarith
  rw [← hsum]
  exact ⟨List.sum_le_sum fun p _ => hlo p, List.sum_le_sum fun p _ => hhi p⟩

/-- Lists of pieces can be cut one after the other. -/
theorem CutInto.replace {Q : Type} {split : Q → ℝ → Option (Q × Q)} {q p : Q} {xs ys zs : List Q}
    (h : CutInto split q (xs ++ p :: ys)) (hz : CutInto split p zs) :
    CutInto split q (xs ++ zs ++ ys) := by
  induction hz with
  | whole => simpa using h
  | @cut us vs a l r t _ t0 t1 hs ih =>
    have h1 : CutInto split q ((xs ++ us) ++ a :: (vs ++ ys)) := by simpa using ih
    simpa using h1.cut t0 t1 hs

/-- Halving is one way of cutting. -/
theorem cutInto_pieces {Q : Type} {split : Q → ℝ → Option (Q × Q)} {halve : Q → Q × Q}
    (hh : ∀ q, split q (1 / 2) = some (halve q)) (n : ℕ) :
    ∀ q, CutInto split q (pieces halve n q) := by
  induction n with
  | zero => exact fun q => .whole
  | succ n ih =>
    intro q
    have h0 : CutInto split q ([] ++ (halve q).1 :: (halve q).2 :: []) :=
      CutInto.cut (xs := []) (ys := []) (p := q) (t := 1 / 2) .whole (by norm_num) (by norm_num)
        (by rw [hh])
    have h1 : CutInto split q (pieces halve n (halve q).1 ++ (halve q).2 :: []) := by
      simpa using h0.replace (ih (halve q).1)
    simpa [pieces] using h1.replace (ih (halve q).2)

theorem pieces_gap {Q : Type} {halve : Q → Q × Q} {gap : Q → ℝ} {size : Q → ℝ → Prop} {K : ℝ}
    (hg : ∀ q A, size q A → gap q ≤ K * A)
    (hs : ∀ q A, size q A → size (halve q).1 (A / 4) ∧ size (halve q).2 (A / 4)) (n : ℕ) :
    ∀ q A, size q A → ((pieces halve n q).map gap).sum ≤ K * A / 2 ^ n := by
  induction n with
  | zero => intro q A h; simpa [pieces] using hg q A h
  | succ n ih =>
    intro q A h
    have h1 := ih _ _ (hs q A h).1
    have h2 := ih _ _ (hs q A h).2
    rw [pieces, List.map_append, List.sum_append]
    refine (add_le_add h1 h2).trans (le_of_eq ?_)
    rw [pow_succ]
    field_simp
    ring

/-! ### The de Casteljau triangle -/

section Triangle
variable {E : Type*} [NormedAddCommGroup E] [NormedSpace ℝ E]

/-- The polygons of the two parts together are no longer than the polygon. -/
theorem corner_cutting {t : ℝ} (t0 : 0 ≤ t) (t1 : t ≤ 1) (n : ℕ) :
    ∀ X : ℕ → ℕ → E, (∀ m j, X (m + 1) j = (1 - t) • X m j + t • X m (j + 1)) →
    ∑ k ∈ Finset.range n, ‖X (k + 1) 0 - X k 0‖
      + ∑ k ∈ Finset.range n, ‖X (n - (k + 1)) (k + 1) - X (n - k) k‖
      ≤ ∑ k ∈ Finset.range n, ‖X 0 (k + 1) - X 0 k‖ := by
  induction n with
  | zero => intro X _; simp
  | succ n ih =>
    intro X hX
    have h := ih (fun m j => X (m + 1) j) fun m j => hX (m + 1) j
    rw [Finset.sum_range_succ' (fun k => ‖X (k + 1) 0 - X k 0‖),
      Finset.sum_range_succ (fun k => ‖X (n + 1 - (k + 1)) (k + 1) - X (n + 1 - k) k‖)]
    have e : ∑ k ∈ Finset.range n, ‖X (n + 1 - (k + 1)) (k + 1) - X (n + 1 - k) k‖
        = ∑ k ∈ Finset.range n, ‖X (n - (k + 1) + 1) (k + 1) - X (n - k + 1) k‖ := by
      refine Finset.sum_congr rfl fun k hk => ?_
      have := Finset.mem_range.1 hk
      rw [show n + 1 - (k + 1) = n - (k + 1) + 1 by omega, show n + 1 - k = n - k + 1 by omega]
    rw [e]
    have a : ‖X (0 + 1) 0 - X 0 0‖ = t * ‖X 0 1 - X 0 0‖ := by
      rw [hX, show (1 - t) • X 0 0 + t • X 0 (0 + 1) - X 0 0 = t • (X 0 1 - X 0 0) by
        rw [Nat.zero_add]; module, norm_smul, Real.norm_of_nonneg t0]
    have b : ‖X (n + 1 - (n + 1)) (n + 1) - X (n + 1 - n) n‖
        = (1 - t) * ‖X 0 (n + 1) - X 0 n‖ := by
      rw [show n + 1 - (n + 1) = 0 by omega, show n + 1 - n = 0 + 1 by omega, hX,
        show X 0 (n + 1) - ((1 - t) • X 0 n + t • X 0 (n + 1))
          = (1 - t) • (X 0 (n + 1) - X 0 n) by module,
        norm_smul, Real.norm_of_nonneg (by linarith)]
    have c : ∑ k ∈ Finset.range n, ‖X (0 + 1) (k + 1) - X (0 + 1) k‖
        ≤ (1 - t) * ∑ k ∈ Finset.range n, ‖X 0 (k + 1) - X 0 k‖
          + t * ∑ k ∈ Finset.range n, ‖X 0 (k + 1 + 1) - X 0 (k + 1)‖ := by
      rw [Finset.mul_sum, Finset.mul_sum, ← Finset.sum_add_distrib]
      refine Finset.sum_le_sum fun k _ => ?_
      rw [hX, hX, show (1 - t) • X 0 (k + 1) + t • X 0 (k + 1 + 1)
          - ((1 - t) • X 0 k + t • X 0 (k + 1))
          = (1 - t) • (X 0 (k + 1) - X 0 k) + t • (X 0 (k + 1 + 1) - X 0 (k + 1)) by module]
      refine (norm_add_le _ _).trans (le_of_eq ?_)
      rw [norm_smul, norm_smul, Real.norm_of_nonneg t0, Real.norm_of_nonneg (by linarith)]
    have s1 := Finset.sum_range_succ (fun k => ‖X 0 (k + 1) - X 0 k‖) n
    have s2 := Finset.sum_range_succ' (fun k => ‖X 0 (k + 1) - X 0 k‖) n
    rw [a, b]
    rw [Nat.zero_add] at s2
    set S := ∑ k ∈ Finset.range (n + 1), ‖X 0 (k + 1) - X 0 k‖
    have m1 : (1 - t) * S = (1 - t) * (∑ k ∈ Finset.range n, ‖X 0 (k + 1) - X 0 k‖
        + ‖X 0 (n + 1) - X 0 n‖) := by rw [s1]
    have m2 : t * S = t * (∑ k ∈ Finset.range n, ‖X 0 (k + 1 + 1) - X 0 (k + 1)‖
        + ‖X 0 1 - X 0 0‖) := by rw [s2]
    linarith

/-- Second differences do not grow along the triangle. -/
theorem second_difference_row {t A : ℝ} (t0 : 0 ≤ t) (t1 : t ≤ 1) {n : ℕ} {X : ℕ → ℕ → E}
    (hX : ∀ m j, X (m + 1) j = (1 - t) • X m j + t • X m (j + 1))
    (hA : ∀ j, j + 2 ≤ n → ‖X 0 j + X 0 (j + 2) - (2 : ℝ) • X 0 (j + 1)‖ ≤ A) (m : ℕ) :
    ∀ j, m + j + 2 ≤ n → ‖X m j + X m (j + 2) - (2 : ℝ) • X m (j + 1)‖ ≤ A := by
  induction m with
  | zero => intro j hj; exact hA j (by omega)
  | succ m ih =>
    intro j hj
    have h1 := ih j (by omega)
    have h2 := ih (j + 1) (by omega)
    rw [hX, hX, hX, show (1 - t) • X m j + t • X m (j + 1)
          + ((1 - t) • X m (j + 2) + t • X m (j + 2 + 1))
          - (2 : ℝ) • ((1 - t) • X m (j + 1) + t • X m (j + 1 + 1))
        = (1 - t) • (X m j + X m (j + 2) - (2 : ℝ) • X m (j + 1))
          + t • (X m (j + 1) + X m (j + 1 + 2) - (2 : ℝ) • X m (j + 1 + 1)) by
        rw [show j + 2 + 1 = j + 1 + 2 by omega, show j + 1 + 1 = j + 2 by omega]; module]
    refine (norm_add_le _ _).trans ?_
    rw [norm_smul, norm_smul, Real.norm_of_nonneg t0, Real.norm_of_nonneg (by linarith)]
    nlinarith

/-- The second differences of the two parts. -/
theorem second_difference_parts {t : ℝ} {X : ℕ → ℕ → E}
    (hX : ∀ m j, X (m + 1) j = (1 - t) • X m j + t • X m (j + 1)) (m j : ℕ) :
    X m j + X (m + 2) j - (2 : ℝ) • X (m + 1) j
      = t ^ 2 • (X m j + X m (j + 2) - (2 : ℝ) • X m (j + 1)) ∧
    X (m + 2) j + X m (j + 2) - (2 : ℝ) • X (m + 1) (j + 1)
      = (1 - t) ^ 2 • (X m j + X m (j + 2) - (2 : ℝ) • X m (j + 1)) := by
  rw [hX (m + 1) j, hX m j, hX m (j + 1), show j + 1 + 1 = j + 2 by omega]
  constructor <;> module

/-- The polygon is longer than its chord by at most a multiple of the second differences. -/
theorem polygon_sub_chord {A : ℝ} (n : ℕ) {x : ℕ → E}
    (hA : ∀ j, j + 2 ≤ n → ‖x j + x (j + 2) - (2 : ℝ) • x (j + 1)‖ ≤ A) :
    ∑ k ∈ Finset.range n, ‖x (k + 1) - x k‖ - ‖x n - x 0‖ ≤ n * (n - 1) * A := by
  have hd : ∀ j, j + 1 ≤ n → ‖(x (j + 1) - x j) - (x 1 - x 0)‖ ≤ j * A := by
    intro j
    induction j with
    | zero => intro _; simp
    | succ j ih =>
      intro hj
      have h1 := ih (by omega)
      have h2 := hA j (by omega)
      rw [show x (j + 1 + 1) - x (j + 1) - (x 1 - x 0)
        = (x j + x (j + 2) - (2 : ℝ) • x (j + 1)) + ((x (j + 1) - x j) - (x 1 - x 0)) by
          rw [show j + 1 + 1 = j + 2 by omega]; module]
      refine (norm_add_le _ _).trans ?_
      push_cast
      linarith
  have hg : ∀ m, m ≤ n → ∑ k ∈ Finset.range m, ‖x (k + 1) - x k‖
        ≤ m * ‖x 1 - x 0‖ + m * (m - 1) / 2 * A ∧
      ‖(x m - x 0) - (m : ℝ) • (x 1 - x 0)‖ ≤ m * (m - 1) / 2 * A := by
    intro m
    induction m with
    | zero => intro _; simp
    | succ m ih =>
      intro hm
      obtain ⟨h1, h2⟩ := ih (by omega)
      have h3 := hd m hm
      have h4 : ‖x (m + 1) - x m‖ ≤ ‖x 1 - x 0‖ + m * A := by
        have := norm_sub_norm_le (x (m + 1) - x m) (x 1 - x 0)
        linarith
      constructor
      · rw [Finset.sum_range_succ]
        push_cast
        linarith
      · rw [show x (m + 1) - x 0 - ((m + 1 : ℕ) : ℝ) • (x 1 - x 0)
          = ((x m - x 0) - (m : ℝ) • (x 1 - x 0)) + ((x (m + 1) - x m) - (x 1 - x 0)) by
            push_cast; module]
        refine (norm_add_le _ _).trans ?_
        push_cast
        linarith
  obtain ⟨h1, h2⟩ := hg n le_rfl
  have h3 : (n : ℝ) * ‖x 1 - x 0‖ ≤ ‖x n - x 0‖ + n * (n - 1) / 2 * A := by
    have := norm_sub_norm_le ((n : ℝ) • (x 1 - x 0)) (x n - x 0)
    rw [norm_smul, Real.norm_of_nonneg (by positivity),
      norm_sub_rev ((n : ℝ) • (x 1 - x 0))] at this
    linarith
  linarith

end Triangle

/-! ### Curves of any degree -/

section Curves
variable {P : Type} [Point ℝ P] [LawfulPoint P] {N : ℕ}

theorem toE_cas_succ (x : ℕ → P) (t : ℝ) (m j : ℕ) :
    toE (cas x t (m + 1) j) = (1 - t) • toE (cas x t m j) + t • toE (cas x t m (j + 1)) := by
  have : (lit 1 : ℝ) = 1 := by simp
  simp only [cas, toE_add, toE_mul, this, neg_add_eq_sub]

theorem controlPolygonLength_eq (ps : Fin N → P) :
    controlPolygonLength ps
      = ∑ k ∈ Finset.range (N - 1), ‖toE (extend ps (k + 1)) - toE (extend ps k)‖ := by
  refine Finset.sum_congr rfl fun k hk => ?_
  have := Finset.mem_range.1 hk
  rw [dif_pos (show k + 1 < N by omega), pdist_eq_norm, norm_sub_rev,
    extend_lt _ (show k + 1 < N by omega), extend_lt _ (show k < N by omega)]

theorem bezier_chord_eq (b : Bezier P N) (hN : 1 ≤ N) :
    pdist (b.control_points ⟨0, hN⟩) (b.control_points ⟨N - 1, by omega⟩)
      = ‖toE (extend b.control_points (N - 1)) - toE (extend b.control_points 0)‖ := by
  rw [pdist_eq_norm, norm_sub_rev, extend_lt _ (show N - 1 < N by omega), extend_lt _ (show 0 < N by omega)]

/-- **C122**: every cut makes both bounds better or leaves them alone: the parts have together at
least the chord and at most the control polygon of the curve. -/
theorem C122_refine (b l r : Bezier P N) (hN : 1 ≤ N) (t : ℝ) (t0 : 0 ≤ t) (t1 : t ≤ 1)
    (hs : b.split t = some (l, r)) :
    pdist (b.control_points ⟨0, hN⟩) (b.control_points ⟨N - 1, by omega⟩)
      ≤ pdist (l.control_points ⟨0, hN⟩) (l.control_points ⟨N - 1, by omega⟩)
        + pdist (r.control_points ⟨0, hN⟩) (r.control_points ⟨N - 1, by omega⟩) ∧
    controlPolygonLength l.control_points + controlPolygonLength r.control_points
      ≤ controlPolygonLength b.control_points := by
  rw [bezier_split_cas, Option.some.injEq, Prod.mk.injEq] at hs
  obtain ⟨rfl, rfl⟩ := hs
  constructor
  · dsimp only [cas]
    simp only [Nat.sub_self, Nat.sub_zero, cas, extend_lt _ (show 0 < N by omega),
      extend_lt _ (show N - 1 < N by omega)]
    exact pdist_triangle _ _ _
  · have h := corner_cutting t0 t1 (N - 1) (fun m j => toE (cas (extend b.control_points) t m j))
      (toE_cas_succ _ t)
    rw [controlPolygonLength_eq, controlPolygonLength_eq, controlPolygonLength_eq]
    refine le_trans (le_of_eq ?_) h
    congr 1
    · refine Finset.sum_congr rfl fun k hk => ?_
      have := Finset.mem_range.1 hk
      rw [extend_lt _ (show k + 1 < N by omega), extend_lt _ (show k < N by omega)]
    · refine Finset.sum_congr rfl fun k hk => ?_
      have := Finset.mem_range.1 hk
      rw [extend_lt _ (show k + 1 < N by omega), extend_lt _ (show k < N by omega)]

theorem bezier_arc_add (b l r : Bezier P N) (hN : 1 ≤ N) (t : ℝ) (t0 : 0 ≤ t) (t1 : t ≤ 1)
    (hs : b.split t = some (l, r)) :
    arcLength (Point.dim P) (fun t i => deriv (fun u => bezierCoord l.controlPoints u i) t)
      + arcLength (Point.dim P) (fun t i => deriv (fun u => bezierCoord r.controlPoints u i) t)
      = arcLength (Point.dim P) (fun t i => deriv (fun u => bezierCoord b.controlPoints u i) t) := by
  obtain ⟨l', r', L, Ll, Lr, x, xl, xr, hs', hL, hx, hxl, hxr, he⟩ := C95_limit b hN t t0 t1
  rw [hs, Option.some.injEq, Prod.mk.injEq] at hs'
  obtain ⟨rfl, rfl⟩ := hs'
  have uniq : ∀ (q : Bezier P N) (M : ℕ → ℝ) (y : ℝ), (∀ n, q.arclen n = some (M n)) →
      Filter.Tendsto M Filter.atTop (nhds y) →
      arcLength (Point.dim P) (fun t i => deriv (fun u => bezierCoord q.controlPoints u i) t) = y := by
    intro q M y hM hy
    obtain ⟨M', hM', -, hy'⟩ := C39_partial q hN
    have : M' = M := funext fun n => by
      have := hM n
      rw [hM' n] at this
      exact Option.some.inj this
    rw [this] at hy'
    exact tendsto_nhds_unique hy' hy
  rw [uniq b L x (fun n => (hL n).1) hx, uniq l Ll xl (fun n => (hL n).2.1) hxl,
    uniq r Lr xr (fun n => (hL n).2.2) hxr, he]

theorem bezier_chord_le_arc (b : Bezier P N) (hN : 1 ≤ N) :
    pdist (b.control_points ⟨0, hN⟩) (b.control_points ⟨N - 1, by omega⟩)
      ≤ arcLength (Point.dim P) (fun t i => deriv (fun u => bezierCoord b.controlPoints u i) t) := by
  obtain ⟨L, hL, -, hx⟩ := C39_partial b hN
  obtain ⟨f, hf, ha⟩ := C39_actual b hN
  obtain ⟨e0, e1⟩ := C31_endpoints b hN
  rw [hf, Option.some.injEq] at e0 e1
  have hc : Continuous fun t : ℝ => pdist (f t) (b.control_points ⟨N - 1, by omega⟩) := by
    have hco : ∀ i, Continuous fun t => coord (f t) i := by
      intro i
      have : (fun t => coord (f t) i)
          = bsum (N - 1) (fun k => coord (extend b.controlPoints k) i) := by
        funext t
        obtain ⟨q, hq, hc⟩ := C30_eval b hN t
        rw [hf, Option.some.injEq] at hq
        rw [hq, hc, bezierCoord_eq_bsum hN]
      rw [this]
      exact (contDiff_bsum _ _ 2).continuous
    unfold pdist
    fun_prop
  have hlim := (hc.tendsto 0).comp tendsto_one_div_atTop_nhds_zero_nat
  rw [e0] at hlim
  refine le_of_tendsto_of_tendsto hlim hx (Filter.eventually_atTop.2 ⟨1, fun n hn => ?_⟩)
  have n0 : (n : ℝ) ≠ 0 := by positivity
  have := chord_le_polyline (fun i : ℕ => f ((i : ℝ) / n)) 1 (n - 1)
  rw [show 1 + (n - 1) = n by omega, Nat.cast_one, div_self n0, e1] at this
  have h1 := hL n
  rw [ha n, Option.some.injEq] at h1
  rw [← h1]
  exact this

/-- **C122**: however a curve is cut, the chords of the pieces add up to at most its arc length and
the control polygons of the pieces to at least its arc length. -/
theorem C122_bounds (b : Bezier P N) (hN : 1 ≤ N) (ps : List (Bezier P N))
    (h : CutInto (fun q t => q.split t) b ps) :
    (ps.map fun p => pdist (p.control_points ⟨0, hN⟩) (p.control_points ⟨N - 1, by omega⟩)).sum
      ≤ arcLength (Point.dim P) (fun t i => deriv (fun u => bezierCoord b.controlPoints u i) t) ∧
    arcLength (Point.dim P) (fun t i => deriv (fun u => bezierCoord b.controlPoints u i) t)
      ≤ (ps.map fun p => controlPolygonLength p.control_points).sum :=
  h.bounds (arc := fun b : Bezier P N =>
      arcLength (Point.dim P) (fun t i => deriv (fun u => bezierCoord b.controlPoints u i) t))
    (fun b => bezier_chord_le_arc b hN) (fun b => C71_arc_length b hN)
    (fun b t l r t0 t1 hs => bezier_arc_add b l r hN t t0 t1 hs)

theorem Bezier.halve_spec (b : Bezier P N) : b.split (1 / 2 : ℝ) = some b.halve := by
  unfold Bezier.halve
  rw [bezier_split_cas]
  rfl

/-- The second differences of the control points are at most `A`. -/
def SecondDiffsAtMost (q : Bezier P N) (A : ℝ) : Prop := ∀ j, j + 2 ≤ N - 1 →
  ‖toE (extend q.control_points j) + toE (extend q.control_points (j + 2))
    - (2 : ℝ) • toE (extend q.control_points (j + 1))‖ ≤ A

theorem SecondDiffsAtMost.of_pdist {b : Bezier P N} {A : ℝ}
    (hA : ∀ k (h : k + 2 < N), pdist (b.control_points ⟨k, by omega⟩ + b.control_points ⟨k + 2, h⟩)
      (b.control_points ⟨k + 1, by omega⟩ + b.control_points ⟨k + 1, by omega⟩) ≤ A) :
    SecondDiffsAtMost b A := by
  intro j hj
  have := hA j (by omega)
  rw [pdist_eq_norm, toE_add, toE_add, ← two_smul ℝ] at this
  rw [extend_lt _ (show j < N by omega), extend_lt _ (show j + 1 < N by omega),
    extend_lt _ (show j + 2 < N by omega)]
  exact this

theorem SecondDiffsAtMost.gap {q : Bezier P N} {A : ℝ} (hN : 1 ≤ N) (h : SecondDiffsAtMost q A) :
    controlPolygonLength q.control_points
      - pdist (q.control_points ⟨0, hN⟩) (q.control_points ⟨N - 1, by omega⟩)
      ≤ ((N - 1 : ℕ) : ℝ) * (N - 2) * A := by
  have := polygon_sub_chord (N - 1) (x := fun j => toE (extend q.control_points j)) h
  rw [controlPolygonLength_eq, bezier_chord_eq]
  have e : ((N - 1 : ℕ) : ℝ) - 1 = N - 2 := by push_cast [hN]; ring
  rw [e] at this
  exact this

theorem SecondDiffsAtMost.halve {q : Bezier P N} {A : ℝ} (h : SecondDiffsAtMost q A) :
    SecondDiffsAtMost q.halve.1 (A / 4) ∧ SecondDiffsAtMost q.halve.2 (A / 4) := by
  have hX := toE_cas_succ (extend q.control_points) (1 / 2 : ℝ)
  have hrow := second_difference_row (t := 1 / 2) (n := N - 1)
    (X := fun m j => toE (cas (extend q.control_points) (1 / 2 : ℝ) m j))
    (by norm_num) (by norm_num) hX h
  have hq := q.halve_spec
  rw [bezier_split_cas, Option.some.injEq] at hq
  rw [← hq]
  constructor
  · intro j hj
    have h1 := (second_difference_parts (t := 1 / 2)
      (X := fun m j => toE (cas (extend q.control_points) (1 / 2 : ℝ) m j)) hX j 0).1
    rw [extend_lt _ (show j < N by omega), extend_lt _ (show j + 1 < N by omega),
      extend_lt _ (show j + 2 < N by omega)]
    dsimp only
    rw [h1, norm_smul, Real.norm_of_nonneg (by positivity)]
    have := hrow j 0 (by omega)
    linarith
  · intro j hj
    have h1 := (second_difference_parts (t := 1 / 2)
      (X := fun m j => toE (cas (extend q.control_points) (1 / 2 : ℝ) m j)) hX (N - 1 - (j + 2)) j).2
    rw [extend_lt _ (show j < N by omega), extend_lt _ (show j + 1 < N by omega),
      extend_lt _ (show j + 2 < N by omega)]
    dsimp only
    rw [show N - 1 - j = N - 1 - (j + 2) + 2 by omega,
      show N - 1 - (j + 1) = N - 1 - (j + 2) + 1 by omega, h1, norm_smul,
      Real.norm_of_nonneg (by positivity)]
    have := hrow (N - 1 - (j + 2)) j (by omega)
    linarith

theorem sum_map_sub {Q : Type} (f g : Q → ℝ) (xs : List Q) :
    (xs.map f).sum - (xs.map g).sum = (xs.map fun p => f p - g p).sum := by
  induction xs with
  | nil => simp
  | cons a xs ih =>
    simp only [List.map_cons, List.sum_cons]
    linarith

/-- **C122**: after `n` halvings the two bounds differ by at most `(N-1)(N-2)A / 2^n`, where `A`
bounds the second differences of the control points. -/
theorem C122_halving (b : Bezier P N) (hN : 1 ≤ N) (A : ℝ)
    (hA : ∀ k (h : k + 2 < N), pdist (b.control_points ⟨k, by omega⟩ + b.control_points ⟨k + 2, h⟩)
      (b.control_points ⟨k + 1, by omega⟩ + b.control_points ⟨k + 1, by omega⟩) ≤ A) (n : ℕ) :
    CutInto (fun q t => q.split t) b (pieces Bezier.halve n b) ∧
    ((pieces Bezier.halve n b).map fun p => controlPolygonLength p.control_points).sum
      - ((pieces Bezier.halve n b).map fun p =>
          pdist (p.control_points ⟨0, hN⟩) (p.control_points ⟨N - 1, by omega⟩)).sum
      ≤ ((N - 1 : ℕ) : ℝ) * (N - 2) * A / 2 ^ n := by
  refine ⟨cutInto_pieces Bezier.halve_spec n b, ?_⟩
  rw [sum_map_sub]
  exact pieces_gap (size := SecondDiffsAtMost) (fun q A h => h.gap hN) (fun q A h => h.halve) n b A
    (.of_pdist hA)

/-! ### Quadratic and cubic curves -/

theorem CutInto.embed {Q R : Type} {split : Q → ℝ → Option (Q × Q)} {split' : R → ℝ → Option (R × R)}
    {g : Q → R} (hg : ∀ q t l r, split q t = some (l, r) → split' (g q) t = some (g l, g r))
    {q : Q} {ps : List Q} (h : CutInto split q ps) : CutInto split' (g q) (ps.map g) := by
  induction h with
  | whole => exact .whole
  | cut _ t0 t1 hs ih =>
    simp only [List.map_append, List.map_cons] at ih ⊢
    exact ih.cut t0 t1 (hg _ _ _ _ hs)

theorem pieces_embed {Q R : Type} {halve : Q → Q × Q} {halve' : R → R × R} {g : Q → R}
    (hg : ∀ q, halve' (g q) = (g (halve q).1, g (halve q).2)) (n : ℕ) :
    ∀ q, pieces halve' n (g q) = (pieces halve n q).map g := by
  induction n with
  | zero => intro q; rfl
  | succ n ih => intro q; rw [pieces, pieces, hg, ih, ih, List.map_append]

/-- A quadratic curve as a curve of the generic type. -/
def QuadraticBezier.generic (q : QuadraticBezier P) : Bezier P 3 :=
  Bezier.new ![q.start, q.ctrl, q.end_]

/-- A cubic curve as a curve of the generic type. -/
def CubicBezier.generic (c : CubicBezier P) : Bezier P 4 :=
  Bezier.new ![c.start, c.ctrl1, c.ctrl2, c.end_]

theorem QuadraticBezier.generic_split (q : QuadraticBezier P) (t : ℝ) :
    q.generic.split t = some ((q.split t).1.generic, (q.split t).2.generic) := by
  obtain ⟨l, r, hs, hl, hr⟩ := C32_quadratic_split q.start q.ctrl q.end_ t
  have inj : ∀ (x : Bezier P 3) (y : QuadraticBezier P), x.intoIter = y.controlPoints →
      x = y.generic := by
    intro x y h
    have h' : [x.control_points 0, x.control_points 1, x.control_points 2]
        = [y.start, y.ctrl, y.end_] := h
    simp only [List.cons.injEq, and_true] at h'
    obtain ⟨h0, h1, h2⟩ := h'
    obtain ⟨p⟩ := x
    unfold QuadraticBezier.generic Bezier.new
    congr 1
    funext k
    fin_cases k
    · exact h0
    · exact h1
    · exact h2
  rw [QuadraticBezier.generic, hs, inj l _ hl, inj r _ hr]
  rfl

theorem CubicBezier.generic_split (c : CubicBezier P) (t : ℝ) :
    c.generic.split t = some ((c.split t).1.generic, (c.split t).2.generic) := by
  obtain ⟨l, r, hs, hl, hr⟩ := C32_cubic_split c.start c.ctrl1 c.ctrl2 c.end_ t
  have inj : ∀ (x : Bezier P 4) (y : CubicBezier P), x.intoIter = y.controlPoints →
      x = y.generic := by
    intro x y h
    have h' : [x.control_points 0, x.control_points 1, x.control_points 2, x.control_points 3]
        = [y.start, y.ctrl1, y.ctrl2, y.end_] := h
    simp only [List.cons.injEq, and_true] at h'
    obtain ⟨h0, h1, h2, h3⟩ := h'
    obtain ⟨p⟩ := x
    unfold CubicBezier.generic Bezier.new
    congr 1
    funext k
    fin_cases k
    · exact h0
    · exact h1
    · exact h2
    · exact h3
  rw [CubicBezier.generic, hs, inj l _ hl, inj r _ hr]
  rfl

theorem QuadraticBezier.generic_arc (q : QuadraticBezier P) :
    arcLength (Point.dim P) (fun t i => deriv (fun u => bezierCoord q.generic.controlPoints u i) t)
      = arcLength (Point.dim P) (fun t i => coord (q.derivative.eval t) i) := by
  obtain ⟨L, hL, -, hx⟩ := C15_partial q
  obtain ⟨M, hM, -, hy⟩ := C39_partial q.generic (by norm_num)
  obtain ⟨f, hf, ha⟩ := C39_actual q.generic (by norm_num)
  have hfq : ∀ t, f t = q.eval t := by
    intro t
    have := C32_quadratic_eval q.start q.ctrl q.end_ t
    rw [show Bezier.new ![q.start, q.ctrl, q.end_] = q.generic from rfl, hf, Option.some.injEq] at this
    exact this
  have : M = L := funext fun n => by
    have h1 := hM n
    have h2 := hL n
    rw [ha n, Option.some.injEq] at h1
    rw [C15_actual, Option.some.injEq] at h2
    simp only [hfq] at h1
    rw [← h1, ← h2]
  rw [this] at hy
  exact tendsto_nhds_unique hy hx

theorem CubicBezier.generic_arc (c : CubicBezier P) :
    arcLength (Point.dim P) (fun t i => deriv (fun u => bezierCoord c.generic.controlPoints u i) t)
      = arcLength (Point.dim P) (fun t i => coord (c.derivative.eval t) i) := by
  obtain ⟨L, hL, -, hx⟩ := C26_partial c
  obtain ⟨M, hM, -, hy⟩ := C39_partial c.generic (by norm_num)
  obtain ⟨f, hf, ha⟩ := C39_actual c.generic (by norm_num)
  have hfc : ∀ t, f t = c.eval t := by
    intro t
    have := C32_cubic_eval c.start c.ctrl1 c.ctrl2 c.end_ t
    rw [show Bezier.new ![c.start, c.ctrl1, c.ctrl2, c.end_] = c.generic from rfl, hf,
      Option.some.injEq] at this
    exact this
  have : M = L := funext fun n => by
    have h1 := hM n
    have h2 := hL n
    rw [ha n, Option.some.injEq] at h1
    rw [C26_actual, Option.some.injEq] at h2
    simp only [hfc] at h1
    rw [← h1, ← h2]
  rw [this] at hy
  exact tendsto_nhds_unique hy hx

theorem QuadraticBezier.generic_polygon (q : QuadraticBezier P) :
    controlPolygonLength q.generic.control_points = pdist q.start q.ctrl + pdist q.ctrl q.end_ := by
  simp [controlPolygonLength, Finset.sum_range_succ, QuadraticBezier.generic, Bezier.new]

theorem CubicBezier.generic_polygon (c : CubicBezier P) :
    controlPolygonLength c.generic.control_points
      = pdist c.start c.ctrl1 + pdist c.ctrl1 c.ctrl2 + pdist c.ctrl2 c.end_ := by
  simp [controlPolygonLength, Finset.sum_range_succ, CubicBezier.generic, Bezier.new]

/-- **C122** for quadratic curves. -/
theorem C122_quadratic (q : QuadraticBezier P) (ps : List (QuadraticBezier P))
    (h : CutInto (fun q t => some (q.split t)) q ps) :
    (ps.map fun p => pdist p.start p.end_).sum
      ≤ arcLength (Point.dim P) (fun t i => coord (q.derivative.eval t) i) ∧
    arcLength (Point.dim P) (fun t i => coord (q.derivative.eval t) i)
      ≤ (ps.map fun p => pdist p.start p.ctrl + pdist p.ctrl p.end_).sum := by
  have h1 := h.embed (split' := fun (b : Bezier P 3) t => b.split t)
    (g := QuadraticBezier.generic) (fun q t l r hs => by
      rw [Option.some.injEq] at hs
      rw [QuadraticBezier.generic_split, hs])
  have h2 := C122_bounds q.generic (by norm_num) _ h1
  rw [List.map_map, List.map_map, QuadraticBezier.generic_arc] at h2
  refine ⟨h2.1, h2.2.trans (le_of_eq ?_)⟩
  congr 1
  exact List.map_congr_left fun p _ => p.generic_polygon

/-- **C122** for cubic curves. -/
theorem C122_cubic (c : CubicBezier P) (ps : List (CubicBezier P))
    (h : CutInto (fun c t => some (c.split t)) c ps) :
    (ps.map fun p => pdist p.start p.end_).sum
      ≤ arcLength (Point.dim P) (fun t i => coord (c.derivative.eval t) i) ∧
    arcLength (Point.dim P) (fun t i => coord (c.derivative.eval t) i)
      ≤ (ps.map fun p => pdist p.start p.ctrl1 + pdist p.ctrl1 p.ctrl2 + pdist p.ctrl2 p.end_).sum := by
  have h1 := h.embed (split' := fun (b : Bezier P 4) t => b.split t)
    (g := CubicBezier.generic) (fun q t l r hs => by
      rw [Option.some.injEq] at hs
      rw [CubicBezier.generic_split, hs])
  have h2 := C122_bounds c.generic (by norm_num) _ h1
  rw [List.map_map, List.map_map, CubicBezier.generic_arc] at h2
  refine ⟨h2.1, h2.2.trans (le_of_eq ?_)⟩
  congr 1
  exact List.map_congr_left fun p _ => p.generic_polygon

/-- **C122** for quadratic curves: `n` halvings bring the bounds within twice the second difference
of the control points over `2^n` of each other. -/
theorem C122_quadratic_halving (q : QuadraticBezier P) (n : ℕ) :
    CutInto (fun q t => some (q.split t)) q (pieces QuadraticBezier.halve n q) ∧
    ((pieces QuadraticBezier.halve n q).map fun p => pdist p.start p.ctrl + pdist p.ctrl p.end_).sum
      - ((pieces QuadraticBezier.halve n q).map fun p => pdist p.start p.end_).sum
      ≤ 2 * pdist (q.start + q.end_) (q.ctrl + q.ctrl) / 2 ^ n := by
  refine ⟨cutInto_pieces (fun _ => rfl) n q, ?_⟩
  have h := (C122_halving q.generic (by norm_num) (pdist (q.start + q.end_) (q.ctrl + q.ctrl))
    (by
      intro k hk
      obtain rfl : k = 0 := by omega
      exact le_rfl) n).2
  rw [pieces_embed (halve := QuadraticBezier.halve) (g := QuadraticBezier.generic), List.map_map,
    List.map_map] at h
  · refine le_trans (le_of_eq ?_) (h.trans (le_of_eq (by push_cast; norm_num)))
    congr 1
    congr 1
    exact List.map_congr_left fun p _ => p.generic_polygon.symm
  · intro p
    have := p.generic.halve_spec
    rw [QuadraticBezier.generic_split, Option.some.injEq] at this
    exact this.symm

/-- **C122** for cubic curves: `n` halvings bring the bounds within six times the larger second
difference of the control points over `2^n` of each other. -/
theorem C122_cubic_halving (c : CubicBezier P) (n : ℕ) :
    CutInto (fun c t => some (c.split t)) c (pieces CubicBezier.halve n c) ∧
    ((pieces CubicBezier.halve n c).map fun p =>
        pdist p.start p.ctrl1 + pdist p.ctrl1 p.ctrl2 + pdist p.ctrl2 p.end_).sum
      - ((pieces CubicBezier.halve n c).map fun p => pdist p.start p.end_).sum
      ≤ 6 * max (pdist (c.start + c.ctrl2) (c.ctrl1 + c.ctrl1))
          (pdist (c.ctrl1 + c.end_) (c.ctrl2 + c.ctrl2)) / 2 ^ n := by
  refine ⟨cutInto_pieces (fun _ => rfl) n c, ?_⟩
  have h := (C122_halving c.generic (by norm_num)
    (max (pdist (c.start + c.ctrl2) (c.ctrl1 + c.ctrl1))
      (pdist (c.ctrl1 + c.end_) (c.ctrl2 + c.ctrl2)))
    (by
      intro k hk
      obtain rfl | rfl : k = 0 ∨ k = 1 := by omega
      · exact le_max_left _ _
      · exact le_max_right _ _) n).2
  rw [pieces_embed (halve := CubicBezier.halve) (g := CubicBezier.generic), List.map_map,
    List.map_map] at h
  · refine le_trans (le_of_eq ?_) (h.trans (le_of_eq (by push_cast; norm_num)))
    congr 1
    congr 1
    exact List.map_congr_left fun p _ => p.generic_polygon.symm
  · intro p
    have := p.generic.halve_spec
    rw [CubicBezier.generic_split, Option.some.injEq] at this
    exact this.symm

/-! ### A case -/

/-- The curve with control points (0,0), (1,1), (2,0), cut at 1/2, has two pieces, each with chord
`√(5/4)`; the second difference of its control points has length 2. -/
example : ∃ ps : List (QuadraticBezier (PointN ℝ 2)),
    CutInto (fun q t => some (q.split t)) (QuadraticBezier.new (pt2 0 0) (pt2 1 1) (pt2 2 0)) ps ∧
    ps.length = 2 ∧ (ps.map fun p => pdist p.start p.end_).sum = Real.sqrt (5 / 4) + Real.sqrt (5 / 4) ∧
    pdist (pt2 0 0 + pt2 2 0) (pt2 1 1 + pt2 1 1) = 2 := by
  refine ⟨_, (C122_quadratic_halving _ 1).1, rfl, ?_, ?_⟩
  · simp only [pieces, QuadraticBezier.halve, QuadraticBezier.split, QuadraticBezier.new,
      List.map_append, List.map_cons, List.map_nil, List.sum_append, List.sum_cons, List.sum_nil,
      pdist, show Point.dim (PointN ℝ 2) = 2 from rfl, Finset.sum_range_succ,
      Finset.sum_range_zero, coord_add, coord_mul, coord_pt2_0, coord_pt2_1, add_zero]
    congr 2 <;> norm_num
  · simp only [pdist, show Point.dim (PointN ℝ 2) = 2 from rfl, Finset.sum_range_succ,
      Finset.sum_range_zero, coord_add, coord_pt2_0, coord_pt2_1]
    norm_num
    rw [show (4 : ℝ) = 2 ^ 2 by norm_num]
    exact Real.sqrt_sq (by norm_num)

end Curves

end Stroke
