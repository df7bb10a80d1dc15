import Verif.Props.BSplinePieces
import Verif.Props.RepairedBSpline
import Verif.Props.Workarounds

set_option linter.unusedSectionVars false

/-!
# A chain of Bezier curves as a B-spline (C154)

Where `D` knots at `x` are followed by `D` knots at `y > x`, a B-spline of degree `D` is the Bezier curve
with the `D + 1` control points of the span.  So every chain of Bezier curves of degree `D`, each starting
where the one before it ends, is a single B-spline: its knots are the times of the joints, each `D`-fold
(and once more at both ends).

`evalFixed` (Verif/Repaired/Model.lean) has the property; `eval` leaves out the last control point of every
curve of the chain (`C154_partial`, `C154_false`).
-/

namespace Stroke

section Basis
variable {u : ℕ → ℝ} {K k D : ℕ} {x y t : ℝ}

/-- Between `D`-fold knots the basis functions are the Bernstein polynomials. -/
theorem coxDeBoor_full_span (hm : ∀ i j, i ≤ j → j < K → u i ≤ u j) (hDk : D ≤ k) (hk : k + D + 1 < K)
    (hl : ∀ i, k < i + D → i ≤ k → u i = x) (hr : ∀ i, k < i → i ≤ k + D → u i = y) (hxy : x < y)
    (h1 : u k ≤ t) (h2 : t < u (k + 1)) : ∀ d, d ≤ D → ∀ m, m ≤ d →
    coxDeBoor u d (k - d + m) t = bernstein d m ((t - x) / (y - x)) := by
  have hyx : y - x ≠ 0 := by linarith
  intro d
  induction d with
  | zero =>
    intro _ m hm0
    obtain rfl : m = 0 := by omega
    rw [show k - 0 + 0 = k from rfl]
    simp only [coxDeBoor]
    rw [if_pos ⟨h1, h2⟩]
    simp [bernstein]
  | succ d ih =>
    intro hd m hmd
    simp only [coxDeBoor]
    have second : m ≤ d → (if u (k - (d + 1) + m + d + 2) = u (k - (d + 1) + m + 1) then 0
        else (u (k - (d + 1) + m + d + 2) - t) / (u (k - (d + 1) + m + d + 2) - u (k - (d + 1) + m + 1))
          * coxDeBoor u d (k - (d + 1) + m + 1) t)
        = (1 - (t - x) / (y - x)) * bernstein d m ((t - x) / (y - x)) := by
      intro hmd'
      rw [hr (k - (d + 1) + m + d + 2) (by omega) (by omega), hl (k - (d + 1) + m + 1) (by omega) (by omega),
        if_neg (by linarith), show k - (d + 1) + m + 1 = k - d + m by omega, ih (by omega) m hmd']
      congr 1
      field_simp
      ring
    have first : 1 ≤ m → (if u (k - (d + 1) + m + d + 1) = u (k - (d + 1) + m) then 0
        else (t - u (k - (d + 1) + m)) / (u (k - (d + 1) + m + d + 1) - u (k - (d + 1) + m))
          * coxDeBoor u d (k - (d + 1) + m) t)
        = (t - x) / (y - x) * bernstein d (m - 1) ((t - x) / (y - x)) := by
      intro hm1
      rw [hr (k - (d + 1) + m + d + 1) (by omega) (by omega), hl (k - (d + 1) + m) (by omega) (by omega),
        if_neg (by linarith), show k - (d + 1) + m = k - d + (m - 1) by omega, ih (by omega) (m - 1) (by omega)]
    rcases Nat.eq_zero_or_pos m with rfl | hm1
    · rw [second (by omega), coxDeBoor_eq_zero hm (by omega) h1 h2 d (k - (d + 1) + 0) (by omega)
        (Or.inr (by omega)), mul_zero, ite_self]
      simp [bernstein]
      ring
    · rw [first hm1]
      obtain ⟨n, rfl⟩ : ∃ n, m = n + 1 := ⟨m - 1, by omega⟩
      rw [Nat.add_sub_cancel, bernstein_rec]
      congr 1
      rcases Nat.lt_or_ge d (n + 1) with hdn | hdn
      · rw [coxDeBoor_eq_zero hm (by omega) h1 h2 d (k - (d + 1) + (n + 1) + 1) (by omega)
          (Or.inl (by omega)), mul_zero, ite_self]
        simp [bernstein, Nat.choose_eq_zero_of_lt hdn]
      · exact second hdn

end Basis

section Chain
variable {P : Type} [Point ℝ P] [LawfulPoint P] {K C D k : ℕ} {x y t : ℝ}
variable {knots : Arr ℝ K} {ps : Arr P C} {b : BSpline ℝ P K C D}

/-- The `D + 1` control points that a spline of degree `D` uses on span `k`. -/
def activePoints (ps : Arr P C) {D k : ℕ} (hDk : D ≤ k) (hkC : k < C) : Arr P (D + 1) :=
  fun i => ps ⟨k - D + i.val, by have := i.isLt; omega⟩

theorem splineCoord_full_span (v : ValidSpline C D knots) (hDk : D ≤ k) (hkC : k < C)
    (hl : ∀ i, k < i + D → i ≤ k → knotAt knots i = x) (hr : ∀ i, k < i → i ≤ k + D → knotAt knots i = y)
    (hxy : x < y) (h1 : knotAt knots k ≤ t) (h2 : t < knotAt knots (k + 1)) (c : ℕ) :
    splineCoord D knots ps t c = bezierCoord (activePoints ps hDk hkC) ((t - x) / (y - x)) c := by
  obtain ⟨v1, v2, v3⟩ := v
  have hm := fun i j (hij : i ≤ j) (hj : j < K) => mono_knotAt v3 hij hj
  have e := coxDeBoor_sum_span hm hDk hkC v2 h1 h2
    (fun i => if h : i < C then coord (ps ⟨i, h⟩) c else 0)
  unfold splineCoord bezierCoord
  rw [Finset.sum_range] at e
  simp only [Fin.is_lt, dif_pos, Fin.eta] at e
  rw [e, Finset.sum_range]
  refine Finset.sum_congr rfl fun i _ => ?_
  have hi := i.isLt
  rw [dif_pos (by omega), coxDeBoor_full_span hm hDk (by omega) hl hr hxy h1 h2 D le_rfl i.val (by omega),
    mul_comm]
  rfl

/-- **C154** for the repaired program: between `D`-fold knots the spline is the Bezier curve with the
control points of the span. -/
theorem C154_repaired (h : BSpline.new knots ps = .ok b) (hD : 1 ≤ D) (hDk : D ≤ k) (hkC : k < C)
    (hl : ∀ i, k < i + D → i ≤ k → knotAt knots i = x) (hr : ∀ i, k < i → i ≤ k + D → knotAt knots i = y)
    (h1 : x ≤ t) (h2 : t < y) :
    ∃ q, b.evalFixed t = .ok q ∧
      (Bezier.new (activePoints ps hDk hkC)).eval ((t - x) / (y - x)) = some q := by
  have vs := ((new_ok_iff _ _ _).1 h).1
  obtain ⟨v1, v2, v3⟩ := id vs
  have k1 : knotAt knots k ≤ t := by rw [hl k (by omega) le_rfl]; exact h1
  have k2 : t < knotAt knots (k + 1) := by rw [hr (k + 1) (by omega) (by omega)]; exact h2
  obtain ⟨q, hq, hc⟩ := C121_bspline h ((mono_knotAt v3 hDk (by omega)).trans k1)
    (k2.trans_le (mono_knotAt v3 (show k + 1 ≤ C by omega) (by omega)))
  obtain ⟨q', hq', hc'⟩ := C30_eval (Bezier.new (activePoints ps hDk hkC)) (by omega) ((t - x) / (y - x))
  refine ⟨q, hq, ?_⟩
  rw [hq']
  congr 1
  apply point_ext
  intro c
  rw [hc', hc, splineCoord_full_span vs hDk hkC hl hr (h1.trans_lt h2) k1 k2]
  rfl

/-- **C154**, what holds of `eval` itself: the last control point of the span is left out. -/
theorem C154_partial (h : BSpline.new knots ps = .ok b) (hf : FrontClamped D knots ∨ BackClamped D knots)
    (hD : 1 ≤ D) (hDk : D ≤ k) (hkC : k < C)
    (hl : ∀ i, k < i + D → i ≤ k → knotAt knots i = x) (hr : ∀ i, k < i → i ≤ k + D → knotAt knots i = y)
    (h1 : x ≤ t) (h2 : t < y) (heps : ∀ i : Fin K, knots i < t → eps ≤ t - knots i) :
    ∃ q, b.eval t = .ok q ∧ (Bezier.new (activePoints ps hDk hkC)).eval ((t - x) / (y - x))
      = some (q + ps ⟨k, hkC⟩ * ((t - x) / (y - x)) ^ D) := by
  have vs := ((new_ok_iff _ _ _).1 h).1
  obtain ⟨v1, v2, v3⟩ := id vs
  have hm := fun i j (hij : i ≤ j) (hj : j < K) => mono_knotAt v3 hij hj
  have k1 : knotAt knots k ≤ t := by rw [hl k (by omega) le_rfl]; exact h1
  have k2 : t < knotAt knots (k + 1) := by rw [hr (k + 1) (by omega) (by omega)]; exact h2
  obtain ⟨q, hq, hc⟩ := C48_partial h hf hDk hkC k1 k2 heps
  obtain ⟨q', hq', hc'⟩ := C30_eval (Bezier.new (activePoints ps hDk hkC)) (by omega) ((t - x) / (y - x))
  refine ⟨q, hq, ?_⟩
  rw [hq']
  congr 1
  apply point_ext
  intro c
  have last := coxDeBoor_full_span hm hDk (by omega) hl hr (h1.trans_lt h2) k1 k2 D le_rfl D le_rfl
  rw [show k - D + D = k by omega] at last
  rw [hc', coord_add, coord_mul, hc, splineCoord_full_span vs hDk hkC hl hr (h1.trans_lt h2) k1 k2, last]
  simp only [Bezier.controlPoints, Bezier.new, bernstein, Nat.choose_self, Nat.sub_self, pow_zero]
  push_cast
  ring

/-- **C154** with the calls of this version: the points of the detour of C136 are those of the Bezier
curve. -/
theorem C154_detour (vs : ValidSpline C D knots) (hf : FrontClamped D knots ∨ BackClamped D knots)
    (ps : Arr P C) (hD : 1 ≤ D) (hDk : D ≤ k) (hkC : k < C)
    (hl : ∀ i, k < i + D → i ≤ k → knotAt knots i = x) (hr : ∀ i, k < i → i ≤ k + D → knotAt knots i = y)
    (h1 : x ≤ t) (h2 : t < y) (heps : ∀ i : Fin K, knots i < t → eps ≤ t - knots i) :
    ∃ (b : BSpline ℝ P K C D) (q : P),
      BSpline.new knots (fun i => ps i - ps ⟨k, hkC⟩) = .ok b ∧ b.eval t = .ok q ∧
      (Bezier.new (activePoints ps hDk hkC)).eval ((t - x) / (y - x)) = some (q + ps ⟨k, hkC⟩) := by
  have k1 : knotAt knots k ≤ t := by rw [hl k (by omega) le_rfl]; exact h1
  have k2 : t < knotAt knots (k + 1) := by rw [hr (k + 1) (by omega) (by omega)]; exact h2
  obtain ⟨b, q, hb, hq, hc⟩ := C136_bspline vs hf ps hDk hkC k1 k2 heps
  obtain ⟨q', hq', hc'⟩ := C30_eval (Bezier.new (activePoints ps hDk hkC)) (by omega) ((t - x) / (y - x))
  refine ⟨b, q, hb, hq, ?_⟩
  rw [hq']
  congr 1
  apply point_ext
  intro c
  rw [hc', hc, splineCoord_full_span vs hDk hkC hl hr (h1.trans_lt h2) k1 k2]
  rfl

/-! ### Chains -/

/-- The knots of a chain of `m` Bezier curves of degree `D` with joints at the times `a 0, ..., a m`:
`a 0` and `a m` are `(D + 1)`-fold, the others `D`-fold. -/
def chainKnots (D m : ℕ) (a : ℕ → ℝ) : Arr ℝ (m * D + 1 + D + 1) :=
  fun i => a (min ((i.val - 1) / D) m)

/-- The control points of curve number `p` of the chain; the last one is the first one of the next curve. -/
def chainPiece {m : ℕ} (D : ℕ) (ps : Arr P (m * D + 1)) {p : ℕ} (hp : p < m) : Arr P (D + 1) :=
  fun i => ps ⟨p * D + i.val, by
    have := i.isLt
    have := Nat.mul_le_mul_right D (show p + 1 ≤ m from hp)
    rw [Nat.add_mul, Nat.one_mul] at this
    omega⟩

variable {m p : ℕ} {a : ℕ → ℝ}

theorem knotAt_chain {i : ℕ} (hi : i < m * D + 1 + D + 1) :
    knotAt (chainKnots D m a) i = a (min ((i - 1) / D) m) := by
  rw [knotAt_lt _ hi, chainKnots]

theorem chain_left (hD : 1 ≤ D) (hp : p < m) {i : ℕ} (h1 : p * D + D < i + D) (h2 : i ≤ p * D + D) :
    knotAt (chainKnots D m a) i = a p := by
  have := Nat.mul_le_mul_right D (show p + 1 ≤ m from hp)
  rw [Nat.add_mul, Nat.one_mul] at this
  have e : (i - 1) / D = p := by
    rw [show i - 1 = (i - 1 - p * D) + p * D by omega, Nat.add_mul_div_right _ _ (by omega),
      Nat.div_eq_of_lt (by omega), Nat.zero_add]
  rw [knotAt_chain (by omega), e, min_eq_left hp.le]

theorem chain_right (hD : 1 ≤ D) (hp : p < m) {i : ℕ} (h1 : p * D + D < i) (h2 : i ≤ p * D + D + D) :
    knotAt (chainKnots D m a) i = a (p + 1) := by
  have := Nat.mul_le_mul_right D (show p + 1 ≤ m from hp)
  rw [Nat.add_mul, Nat.one_mul] at this
  have e : (i - 1) / D = p + 1 := by
    rw [show i - 1 = (i - 1 - p * D - D) + (p + 1) * D by rw [Nat.add_mul, Nat.one_mul]; omega,
      Nat.add_mul_div_right _ _ (by omega), Nat.div_eq_of_lt (by omega), Nat.zero_add]
  rw [knotAt_chain (by omega), e, min_eq_left hp]

theorem valid_chain (hm : 1 ≤ m) (ha : StrictMono a) :
    ValidSpline (m * D + 1) D (chainKnots D m a) := by
  have := Nat.mul_le_mul_right D hm
  refine ⟨by omega, rfl, fun i j hij => ha.monotone ?_⟩
  have hij' : i.val ≤ j.val := hij
  exact min_le_min_right _ (Nat.div_le_div_right (by omega))

theorem front_chain (hD : 1 ≤ D) : FrontClamped D (chainKnots D m a) := by
  intro i hi
  rw [knotAt_chain (by omega), chainKnots, Nat.div_eq_of_lt (by omega : i.val - 1 < D),
    Nat.div_eq_of_lt (by omega : 0 - 1 < D), sub_self, abs_zero]
  exact eps_pos

theorem back_chain (hD : 1 ≤ D) : BackClamped D (chainKnots D m a) := by
  intro i hi
  have h1 : m ≤ (i.val - 1) / D := (Nat.le_div_iff_mul_le (by omega)).2 (by omega)
  have h2 : m ≤ (m * D + 1 + D + 1 - 1 - 1) / D := (Nat.le_div_iff_mul_le (by omega)).2 (by omega)
  rw [knotAt_chain (by omega), chainKnots, min_eq_right h1, min_eq_right h2, sub_self, abs_zero]
  exact eps_pos

theorem activePoints_chain (ps : Arr P (m * D + 1)) (hp : p < m) (hDk : D ≤ p * D + D)
    (hkC : p * D + D < m * D + 1) : activePoints ps hDk hkC = chainPiece D ps hp := by
  funext i
  unfold activePoints chainPiece
  congr 2
  omega

theorem chain_index (hp : p < m) : p * D + D < m * D + 1 := by
  have := Nat.mul_le_mul_right D (show p + 1 ≤ m from hp)
  rw [Nat.add_mul, Nat.one_mul] at this
  omega

/-- **C154** for the repaired program, chains: one B-spline runs through all the Bezier curves, one after
the other, up to the end of the last one. -/
theorem C154_repaired_chain (hD : 1 ≤ D) (hm : 1 ≤ m) (ha : StrictMono a) (ps : Arr P (m * D + 1)) :
    ∃ b : BSpline ℝ P (m * D + 1 + D + 1) (m * D + 1) D, BSpline.new (chainKnots D m a) ps = .ok b ∧
      b.knotDomain = some (a 0, a m) ∧
      (∀ p (hp : p < m) (t : ℝ), a p ≤ t → t < a (p + 1) → ∃ q, b.evalFixed t = .ok q ∧
        (Bezier.new (chainPiece D ps hp)).eval ((t - a p) / (a (p + 1) - a p)) = some q) ∧
      b.evalFixed (a m) = .ok (ps ⟨m * D, by omega⟩) := by
  have vs := valid_chain (D := D) hm ha
  obtain ⟨b, hb⟩ := (C43_accepts (D := D) _ ps).2 vs
  have first : knotAt (chainKnots D m a) D = a 0 := by
    rw [knotAt_chain (by omega), Nat.div_eq_of_lt (by omega), min_eq_left (by omega)]
  have last : knotAt (chainKnots D m a) (m * D + 1) = a m := by
    rw [knotAt_chain (by omega), Nat.add_sub_cancel, Nat.mul_div_cancel _ (by omega), min_self]
  refine ⟨b, hb, ?_, fun p hp t h1 h2 => ?_, ?_⟩
  · rw [C45_partial hb ⟨fun _ => back_chain hD, fun _ => front_chain hD⟩, first, last]
  · obtain ⟨q, e1, e2⟩ := C154_repaired hb hD (Nat.le_add_left D (p * D)) (chain_index hp)
      (fun i i1 i2 => chain_left hD hp i1 i2) (fun i i1 i2 => chain_right hD hp i1 i2) h1 h2
    rw [activePoints_chain ps hp] at e2
    exact ⟨q, e1, e2⟩
  · have e := C121_bspline_end hb
    rw [last] at e
    exact e

/-- **C154** of `eval` itself, chains: every curve lacks the term of its last control point. -/
theorem C154_chain (hD : 1 ≤ D) (hm : 1 ≤ m) (ha : StrictMono a) (ps : Arr P (m * D + 1)) :
    ∃ b : BSpline ℝ P (m * D + 1 + D + 1) (m * D + 1) D, BSpline.new (chainKnots D m a) ps = .ok b ∧
      b.knotDomain = some (a 0, a m) ∧
      (∀ p (hp : p < m) (t : ℝ), a p ≤ t → t < a (p + 1) → (∀ i ≤ m, a i < t → eps ≤ t - a i) →
        ∃ q, b.eval t = .ok q ∧
        (Bezier.new (chainPiece D ps hp)).eval ((t - a p) / (a (p + 1) - a p))
          = some (q + ps ⟨p * D + D, chain_index hp⟩ * ((t - a p) / (a (p + 1) - a p)) ^ D)) ∧
      b.eval (a m) = .ok (ps ⟨m * D, by omega⟩) := by
  obtain ⟨b, hb, hd, -⟩ := C154_repaired_chain hD hm ha ps
  refine ⟨b, hb, hd, fun p hp t h1 h2 heps => ?_, ?_⟩
  · obtain ⟨q, e1, e2⟩ := C154_partial hb (Or.inl (front_chain hD)) hD (Nat.le_add_left D (p * D))
      (chain_index hp) (fun i i1 i2 => chain_left hD hp i1 i2) (fun i i1 i2 => chain_right hD hp i1 i2) h1 h2
      (fun i hi => heps _ (min_le_right _ _) hi)
    rw [activePoints_chain ps hp] at e2
    exact ⟨q, e1, e2⟩
  · obtain ⟨_, e⟩ := C49_end hb (front_chain hD) (back_chain hD) hd
    exact e

/-- **C154** is false of `eval`: in every chain whose times are at least the machine epsilon apart, each
curve whose last control point is not the origin is missed at its middle. -/
theorem C154_false (hD : 1 ≤ D) (hm : 1 ≤ m) (hgap : ∀ i, 2 * eps ≤ a (i + 1) - a i)
    (ps : Arr P (m * D + 1)) (hp : p < m) (hne : ps ⟨p * D + D, chain_index hp⟩ ≠ Point.default) :
    ∃ b : BSpline ℝ P (m * D + 1 + D + 1) (m * D + 1) D, BSpline.new (chainKnots D m a) ps = .ok b ∧
      ∃ q q', b.eval ((a p + a (p + 1)) / 2) = .ok q ∧
        (Bezier.new (chainPiece D ps hp)).eval ((1 : ℝ) / 2) = some q' ∧ q ≠ q' := by
  have e0 := eps_pos
  have ha : StrictMono a := strictMono_nat_of_lt_succ fun i => by linarith [hgap i]
  obtain ⟨b, hb, -, h, -⟩ := C154_chain hD hm ha ps
  have lt := ha (Nat.lt_succ_self p)
  obtain ⟨q, e1, e2⟩ := h p hp ((a p + a (p + 1)) / 2) (by linarith [hgap p]) (by linarith [hgap p])
    (fun i _ hi => by
      have hip : i ≤ p := by
        by_contra hc
        have := ha.monotone (show p + 1 ≤ i by omega)
        linarith [hgap p]
      have := ha.monotone hip
      linarith [hgap p])
  have half : ((a p + a (p + 1)) / 2 - a p) / (a (p + 1) - a p) = 1 / 2 := by
    have : a (p + 1) - a p ≠ 0 := by linarith [hgap p]
    field_simp
    ring
  rw [half] at e2
  refine ⟨b, hb, q, _, e1, e2, fun heq => hne ?_⟩
  apply point_ext
  intro c
  have := congrArg (fun z => coord z c) heq
  simp only [coord_add, coord_mul] at this
  rw [coord_default]
  have h2 : (1 / 2 : ℝ) ^ D ≠ 0 := by positivity
  have h3 : coord (ps ⟨p * D + D, chain_index hp⟩) c * (1 / 2 : ℝ) ^ D = 0 := by linarith
  exact (mul_eq_zero.1 h3).resolve_right h2

/-- Hypotheses of `C154_repaired_chain`, `C154_chain` and `C154_false`: three quadratic curves joined at the
times 1 and 2. -/
example : chainKnots 2 3 (fun i => (i : ℝ)) = ![0, 0, 0, 1, 1, 2, 2, 3, 3, 3] ∧
    StrictMono (fun i : ℕ => (i : ℝ)) ∧ ∀ i : ℕ, 2 * eps ≤ ((i + 1 : ℕ) : ℝ) - (i : ℝ) := by
  refine ⟨?_, Nat.strictMono_cast, fun i => ?_⟩
  · funext i
    fin_cases i <;> simp [chainKnots]
  · push_cast
    unfold eps
    norm_num

/-- Hypotheses of `C154_repaired`, `C154_partial` and `C154_detour`: the middle one of these curves, at the
time 3/2. -/
example : ValidSpline 7 2 (chainKnots 2 3 fun i => (i : ℝ)) ∧
    FrontClamped 2 (chainKnots 2 3 fun i => (i : ℝ)) ∧
    (∀ i, 4 < i + 2 → i ≤ 4 → knotAt (chainKnots 2 3 fun i => (i : ℝ)) i = 1) ∧
    (∀ i, 4 < i → i ≤ 4 + 2 → knotAt (chainKnots 2 3 fun i => (i : ℝ)) i = 2) ∧
    ∀ i, chainKnots 2 3 (fun i => (i : ℝ)) i < 3 / 2 → eps ≤ 3 / 2 - chainKnots 2 3 (fun i => (i : ℝ)) i := by
  refine ⟨valid_chain (D := 2) (m := 3) (by omega) Nat.strictMono_cast, front_chain (by omega), fun i h1 h2 => ?_,
    fun i h1 h2 => ?_, fun i hi => ?_⟩
  · rw [chain_left (D := 2) (m := 3) (p := 1) (by omega) (by omega) h1 h2]; norm_num
  · rw [chain_right (D := 2) (m := 3) (p := 1) (by omega) (by omega) h1 h2]; norm_num
  · rw [chainKnots] at hi ⊢
    have lt : ((min ((i.val - 1) / 2) 3 : ℕ) : ℝ) < 2 := by linarith
    have le : min ((i.val - 1) / 2) 3 ≤ 1 := by
      have : min ((i.val - 1) / 2) 3 < 2 := by exact_mod_cast lt
      omega
    have le' : ((min ((i.val - 1) / 2) 3 : ℕ) : ℝ) ≤ 1 := by exact_mod_cast le
    have : eps ≤ 1 / 2 := by unfold eps; norm_num
    linarith

end Chain
end Stroke
