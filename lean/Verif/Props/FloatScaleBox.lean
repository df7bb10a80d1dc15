import Verif.Props.FloatScaleSpline
import Verif.Props.AnyArithmetic

/-!
# Changing the unit of length where the tolerance matters (C141)

The calls that compare with a fixed tolerance, in floating point: distance to a line segment,
`is_linear`, `is_a_point`, `solve_t_for_axis` and the bounding boxes.  If the coordinates are
multiples of a power of two that is not below the tolerance, before and after the change of units,
and neither computation underflows or overflows, then changing the units by `2^k` scales lengths and
boxes by exactly `2^k` and leaves answers and parameters as they are, bit for bit.
(`C139_segment_distance_not` shows that this fails on a finer grid.)
-/

set_option linter.unusedSectionVars false

namespace Stroke

open Fl

variable {F : FloatFormat} {n : ℕ} {p : ℕ} {low top : ℤ} {k m b g : ℤ}

theorem scaled_zero : ScaledFl k m b (lit 0 : Fl F) (lit 0) := by
  rw [lit_zero]
  exact ⟨0, F.zero_ok, by rw [mul_zero]; exact F.zero_ok, rfl, fin_congr (by rw [mul_zero]),
    isMultiple_zero _, by rw [abs_zero]; positivity⟩

theorem ScaledFl.toReal_eq {x y : Fl F} (h : ScaledFl k m b x y) :
    y.toReal = 2 ^ k * x.toReal := by
  obtain ⟨r, hr, hr', rfl, rfl, _, _⟩ := h
  rfl

/-- The rounded value of a number on a grid is only zero if the number is. -/
theorem rnd_ne_zero (hF : F.Binary p low top) {r : ℝ} {e : ℤ} (h : (2 : ℝ) ^ e ≤ |r|)
    (he : low ≤ e) : (2 : ℝ) ^ e ≤ |F.rnd r| := by
  have tm : (2 : ℝ) ^ e ∈ F.grid := hF.two_mem he
  rcases le_abs.1 h with c | c
  · have := F.rnd_mono c
    rw [F.rnd_of_mem _ tm] at this
    exact this.trans (le_abs_self _)
  · have := F.rnd_mono (show r ≤ -(2 : ℝ) ^ e by linarith)
    rw [F.rnd_of_mem _ (F.neg_mem _ tm)] at this
    exact (by linarith : (2 : ℝ) ^ e ≤ -F.rnd r).trans (neg_le_abs _)

/-- Quotients are not scaled. -/
theorem ScaledFl.div (hF : F.Binary p low top) {m' b' : ℤ} {x x' y y' : Fl F}
    (hx : ScaledFl k m b x x') (hy : ScaledFl k m' b' y y') (h0 : y.toReal ≠ 0)
    (h1 : b - m' ≤ g) (h2 : b' - m ≤ g) (g0 : 0 ≤ g) (h3 : low ≤ -(g + p)) (h4 : g ≤ top) :
    x' / y' = x / y ∧ OnGrid (-(g + p)) g (x / y) := by
  obtain ⟨u, hu, hu', rfl, rfl, mu, bu⟩ := hx
  obtain ⟨v, hv, hv', rfl, rfl, mv, bv⟩ := hy
  rw [toReal_fin] at h0
  have k0 : (2 : ℝ) ^ k ≠ 0 := by positivity
  have v1 : 0 < |v| := abs_pos.2 h0
  rw [fin_div h0, fin_div (mul_ne_zero k0 h0), mul_div_mul_left _ _ k0]
  refine ⟨rfl, ?_⟩
  have q1 : |u / v| ≤ 2 ^ g := by
    rw [abs_div, div_le_iff₀ v1]
    calc |u| ≤ 2 ^ b := bu
      _ ≤ 2 ^ (g + m') := two_zpow_mono (by omega)
      _ = 2 ^ g * 2 ^ m' := zpow_add₀ (by norm_num) _ _
      _ ≤ 2 ^ g * |v| := by
        have := mv.le_abs h0
        gcongr
  obtain ⟨hz, ez, lz⟩ := round_bounded hF q1 (by omega) h4
  rw [ez]
  refine ⟨trivial, ?_, lz⟩
  rw [toReal_fin]
  rcases eq_or_ne u 0 with rfl | u0
  · rw [zero_div, F.rnd_of_mem 0 F.zero_ok.1]
    exact isMultiple_zero _
  · have q2 : (2 : ℝ) ^ (-g) ≤ |u / v| := by
      rw [abs_div, le_div_iff₀ v1]
      calc (2 : ℝ) ^ (-g) * |v| ≤ 2 ^ (-g) * 2 ^ b' := by gcongr
        _ = 2 ^ (-g + b') := (zpow_add₀ (by norm_num) _ _).symm
        _ ≤ 2 ^ m := two_zpow_mono (by omega)
        _ ≤ |u| := mu.le_abs u0
    have := hF.coarse (-g) _ (F.rnd_mem _) (rnd_ne_zero hF q2 (by omega))
    rwa [show -g - (p : ℤ) = -(g + p) by ring] at this

/-! ### Distance to a line segment -/

theorem ScaledPt.axis {x y : PointN (Fl F) n} (h : ScaledPt k m b x y) (i : ℕ) :
    OptRel (ScaledFl k m b) (Point.axis x i) (Point.axis y i) := by
  show OptRel _ (PointN.axis x i) (PointN.axis y i)
  unfold PointN.axis
  split
  · exact Arr.get?_rel _ fun hi => h ⟨i, hi⟩
  · trivial

theorem dotLoop_scaled (hF : F.Binary p low top) {x y x' y' : PointN (Fl F) n}
    (h : ScaledPt k m b x y) (h' : ScaledPt k m b x' y') (h1 : low ≤ m + m)
    (h2 : low ≤ m + m + (k + k)) (h3 : b + b + n ≤ top) (h4 : b + b + n + (k + k) ≤ top) :
    OptRel (ScaledFl (k + k) (m + m) (b + b + n)) (LineSegment.dotLoop x x')
      (LineSegment.dotLoop y y') := by
  unfold LineSegment.dotLoop
  rw [iter_length_pn, iter_length_pn]
  refine OptRel.forRange (fun i u v => ScaledFl (k + k) (m + m) (b + b + i) u v) (Nat.zero_le n)
    scaled_zero ?_
  intro i u v _ hi huv
  refine (h.axis i).bind fun a a' ha => ?_
  refine (h'.axis i).bind fun c c' hc => ?_
  have a1 := ha.mul hF hc h1 h2 (by omega) (by omega)
  have a2 := huv.add hF (a1.mono le_rfl (show b + b ≤ b + b + (i : ℤ) by omega)) h1 h2
    (by omega) (by omega)
  show ScaledFl _ _ _ _ _
  have : b + b + ((i + 1 : ℕ) : ℤ) = b + b + i + 1 := by push_cast; ring
  rw [this]
  exact a2

/-- The grid of the coordinates is not finer than the tolerance, in the old units and in the new
ones, nor is the grid of squared lengths. -/
structure CoarseGrid (F : FloatFormat) (k m : ℤ) : Prop where
  old : F.epsilon < 2 ^ m
  new : F.epsilon < 2 ^ (m + k)
  old_squared : F.epsilon ≤ 2 ^ (m + m)
  new_squared : F.epsilon ≤ 2 ^ (m + m + (k + k))

/-- Exponents for which nothing underflows or overflows in the distance to a line segment: the
coordinates are multiples of `2^m` of size at most `2^b`, the unit is changed by the factor `2^k`,
and `2^g` is larger than any quotient of two squared lengths. -/
structure SegmentRoom (p : ℕ) (low top : ℤ) (n : ℕ) (k m b g : ℤ) : Prop where
  k_lo : low ≤ k
  k_hi : k ≤ top
  g_nonneg : 0 ≤ g
  g_ge : 2 * b + 2 + n - 2 * m ≤ g
  g_hi : g ≤ top
  g_lo : low ≤ -(g + p)
  b_lo : low ≤ b
  bm : m ≤ b
  lo : low ≤ 2 * (m - (g + p))
  lo' : low ≤ 2 * (m - (g + p)) + 2 * k
  lo1 : low ≤ m - (g + p)
  lo1' : low ≤ m - (g + p) + k
  hi : 2 * (b + 3 + n) ≤ top
  hi' : 2 * (b + 3 + n) + 2 * k ≤ top
  hi1 : b + 3 + n ≤ top
  hi1' : b + 3 + n + k ≤ top

/-- The clamped parameter of the foot point. -/
theorem clamp_onGrid {q : Fl F} {e c : ℤ} (h : OnGrid e c q) :
    OnGrid e 0 (if Scalar.lt (if Scalar.lt q (lit 1) then q else lit 0) (lit 0) then (lit 0 : Fl F)
      else (if Scalar.lt q (lit 1) then q else lit 0)) := by
  have z : OnGrid e 0 (lit 0 : Fl F) := by
    rw [lit_zero]
    exact ⟨trivial, isMultiple_zero _, by simp⟩
  by_cases c1 : Scalar.lt q (lit 1) = true
  · rw [if_pos c1]
    by_cases c2 : Scalar.lt q (lit 0) = true
    · rwa [if_pos c2]
    · rw [if_neg c2]
      obtain ⟨f, h1, h2⟩ := h
      obtain ⟨r, hr, rfl⟩ := isFinite_iff.1 f
      rw [lit_one, lt_fin] at c1
      rw [lit_zero, lt_fin, not_lt] at c2
      refine ⟨trivial, h1, ?_⟩
      rw [toReal_fin, abs_of_nonneg c2, zpow_zero]
      exact c1.le
  · rw [if_neg c1]
    split <;> exact z

theorem segment_scaled (hF : F.Binary p low top) (R : SegmentRoom p low top n k m b g)
    (E : CoarseGrid F k m) {s e z s' e' z' : PointN (Fl F) n} (hs : ScaledPt k m b s s')
    (he : ScaledPt k m b e e') (hz : ScaledPt k m b z z') :
    OptRel (ScaledFl k (m - (g + p) - p) (b + 3 + n)) ((⟨s, e⟩ : LineSegment _).distanceToPoint z)
      ((⟨s', e'⟩ : LineSegment _).distanceToPoint z') := by
  obtain ⟨r1, r2, r3, r4, r5, r6, r7, r8, r9, r10, r11, r12, r13, r14, r15, r16⟩ := R
  have v := he.sub hF hs (by omega) (by omega) (by omega) (by omega)
  obtain ⟨l2, l20⟩ := v.squaredLength hF (by omega) (by omega) (by omega) (by omega)
  have root : ∀ {x y : PointN (Fl F) n}, ScaledPt k (m - (g + p)) (b + 3) x y →
      ScaledFl k (m - (g + p) - p) (b + 3 + n) (Scalar.sqrt (Point.squaredLength x : Fl F))
        (Scalar.sqrt (Point.squaredLength y)) := by
    intro x y h
    obtain ⟨a, a0⟩ := h.squaredLength hF (by omega) (by omega) (by omega) (by omega)
    exact (a.mono le_rfl (show b + 3 + (b + 3) + n ≤ b + 3 + n + (b + 3 + n) by omega)).sqrt hF a0
      r11 (by omega) r15 (by omega) (by omega)
  unfold LineSegment.distanceToPoint
  dsimp only
  rw [l2.lt_epsilon E.old_squared E.new_squared]
  by_cases c : Scalar.lt (Point.squaredLength (e - s) : Fl F) Scalar.epsilon = true
  · rw [if_pos c, if_pos c]
    exact root ((hs.sub hF hz (by omega) (by omega) (by omega) (by omega)).mono (by omega)
      (by omega))
  · rw [if_neg c, if_neg c]
    have w := hz.sub hF hs (by omega) (by omega) (by omega) (by omega)
    refine (dotLoop_scaled hF w v (by omega) (by omega) (by omega) (by omega)).bind
      fun d d' hd => ?_
    have ne : (Point.squaredLength (e - s) : Fl F).toReal ≠ 0 := by
      obtain ⟨r, hr, _, er, _, _, _⟩ := l2
      rw [er, epsilon_eq, lt_fin] at c
      rw [er, toReal_fin]
      rintro rfl
      exact c F.epsilon_pos
    obtain ⟨eq, og⟩ := hd.div (g := g) hF l2 ne (by omega) (by omega) r3 r6 r5
    rw [eq]
    have ct := clamp_onGrid og
    refine root ?_
    have a := v.mulParam hF ct (by omega) (by omega) (by omega) (by omega)
    have a1 := (hs.mono (show m + -(g + p) ≤ m by omega) (show b ≤ b + 1 + 0 by omega)).add hF a
      (by omega) (by omega) (by omega) (by omega)
    have a2 := (hz.mono (show m + -(g + p) ≤ m by omega) (show b ≤ b + 1 + 0 + 1 by omega)).sub hF a1
      (by omega) (by omega) (by omega) (by omega)
    exact a2.mono (by omega) (by omega)

theorem OptRel.map_eq {α β : Type} {R : α → β → Prop} {x : Option α} {y : Option β} (f : α → β)
    (h : OptRel R x y) (hf : ∀ a b, R a b → b = f a) : y = x.map f := by
  cases x <;> cases y <;> first | exact h.elim | rfl | exact congrArg some (hf _ _ h)

/-- **C141** (distance to a segment). -/
theorem C141_segment (hF : F.Binary p low top) (R : SegmentRoom p low top n k m b g)
    (E : CoarseGrid F k m) (l : LineSegment (PointN (Fl F) n)) (z : PointN (Fl F) n)
    (hs : PointOnGrid m b l.start) (he : PointOnGrid m b l.end_) (hz : PointOnGrid m b z) :
    (l.mapPts (timesTwoPow k)).distanceToPoint (timesTwoPow k z) =
      (l.distanceToPoint z).map (· * twoPow F k) := by
  have up : ∀ {x : PointN (Fl F) n}, PointOnGrid m b x → ScaledPt k m b x (timesTwoPow k x) := by
    intro x hx
    obtain ⟨r1, r2, r3, r4, r5, r6, r7, r8, r9, r10, r11, r12, r13, r14, r15, r16⟩ := R
    exact hx.scaled hF r1 r2 (by omega) (by omega) (by omega) (by omega)
  exact (segment_scaled hF R E (up hs) (up he) (up hz)).map_eq _
    fun a b h => h.eq_mul hF R.k_lo R.k_hi

/-! ### Roots -/

theorem ScaledFl.ne_zero {x y : Fl F} (h : ScaledFl k m b x y)
    (c : ¬ Scalar.lt (Scalar.abs x) (Scalar.epsilon : Fl F) = true) : x.toReal ≠ 0 := by
  obtain ⟨r, hr, _, rfl, _, _, _⟩ := h
  rintro h0
  rw [toReal_fin] at h0
  subst h0
  apply c
  show Scalar.lt (fin |0| _ : Fl F) Scalar.epsilon = true
  rw [epsilon_eq, lt_fin, abs_zero]
  exact F.epsilon_pos

theorem ScaledFl.double_ne_zero (hF : F.Binary p low top) {x y : Fl F} (h : ScaledFl k m b x y)
    (h0 : x.toReal ≠ 0) (h1 : low ≤ m) (h2 : b + 1 ≤ top) (h3 : low ≤ b + 1) :
    (x * lit 2).toReal ≠ 0 := by
  obtain ⟨r, hr, _, rfl, _, m1, b1⟩ := h
  rw [toReal_fin] at h0
  have e2 : (lit 2 : Fl F) = fin 2 (by simpa using F.int_ok 2 (by norm_num)) := by
    simpa using lit_int (F := F) 2 (by norm_num)
  rw [e2, fin_mul]
  have l : |r * 2| ≤ 2 ^ (b + 1) := by
    rw [abs_mul, zpow_add₀ (by norm_num), zpow_one, abs_two]
    linarith
  obtain ⟨hz, ez, _⟩ := round_bounded hF l h3 h2
  rw [ez, toReal_fin]
  have g1 : (2 : ℝ) ^ m ≤ |r * 2| := by
    rw [abs_mul, abs_two]
    have := m1.le_abs h0
    have : 0 ≤ |r| := abs_nonneg r
    linarith
  have := rnd_ne_zero hF g1 h1
  intro hc
  rw [hc, abs_zero] at this
  exact absurd this (not_le.2 (by positivity))

theorem avPush_rel {α β : Type} {R : α → β → Prop} {c : ℕ} {l : List α} {l' : List β}
    (h : List.Forall₂ R l l') {x : α} {y : β} (hx : R x y) :
    OptRel (List.Forall₂ R) (avPush c l x) (avPush c l' y) := by
  unfold avPush
  rw [h.length_eq]
  split
  · exact List.rel_append h (.cons hx .nil)
  · trivial

/-- Exponents for which nothing underflows or overflows in the roots of a quadratic polynomial whose
coefficients are multiples of `2^m` of size at most `2^b`. -/
structure RootRoom (p : ℕ) (low top : ℤ) (k m b g : ℤ) : Prop where
  g_nonneg : 0 ≤ g
  g_ge : b + 3 - m + p ≤ g
  g_hi : g ≤ top
  g_lo : low ≤ -(g + p)
  b_lo : low ≤ b
  bm : m ≤ b
  lo : low ≤ 2 * m
  lo' : low ≤ 2 * m + 2 * k
  lo1 : low ≤ m - p
  lo1' : low ≤ m - p + k
  hi : 2 * (b + 2) ≤ top
  hi' : 2 * (b + 2) + 2 * k ≤ top
  hi1 : b + 3 ≤ top
  hi1' : b + 3 + k ≤ top

theorem onGrid_lit4 : OnGrid 0 2 (lit 4 : Fl F) := by
  simpa using onGrid_int (F := F) (z := 4) (by norm_num) (b := 2) (by norm_num)

/-- The same root, of moderate size. -/
def SameRoot (p : ℕ) (g : ℤ) (r r' : Fl F) : Prop := r' = r ∧ OnGrid (-(g + p)) g r

/-- The quadratic formula of `roots_square`, for any capacity. -/
def rootsTwo {S : Type} [Scalar S] (cap : ℕ) (a b c : S) : Option (List S) := do
  let result : List S := []
  if Scalar.lt (Scalar.abs a) Scalar.epsilon then
    if Scalar.lt (Scalar.abs b) Scalar.epsilon then
      return result
    return (← avPush cap result (-c / b))
  let delta := b * b - a * c * lit 4
  if Scalar.lt (lit 0) delta then
    let sqrt_delta := Scalar.sqrt delta
    let result ← avPush cap result ((-b - sqrt_delta) / (a * lit 2))
    let result ← avPush cap result ((-b + sqrt_delta) / (a * lit 2))
    return result
  else if Scalar.lt (Scalar.abs delta) Scalar.epsilon then
    return (← avPush cap result (-b / (a * lit 2)))
  return result

theorem rootsTwo_scaled (hF : F.Binary p low top) (R : RootRoom p low top k m b g)
    (E : CoarseGrid F k m) (cap : ℕ) {x y z x' y' z' : Fl F} (hx : ScaledFl k m b x x')
    (hy : ScaledFl k m b y y') (hz : ScaledFl k m b z z') :
    OptRel (List.Forall₂ (SameRoot p g)) (rootsTwo cap x y z) (rootsTwo cap x' y' z') := by
  obtain ⟨r1, r2, r3, r4, r5, r6, r7, r8, r9, r10, r11, r12, r13, r14⟩ := R
  unfold rootsTwo
  dsimp only
  rw [hx.abs.lt_epsilon E.old.le E.new.le, hy.abs.lt_epsilon E.old.le E.new.le]
  have push : ∀ {u v : Fl F}, SameRoot p g u v → OptRel (List.Forall₂ (SameRoot p g))
      (avPush cap [] u) (avPush cap [] v) :=
    fun h => avPush_rel .nil h
  by_cases c1 : Scalar.lt (Scalar.abs x) (Scalar.epsilon : Fl F) = true
  · rw [if_pos c1, if_pos c1]
    by_cases c2 : Scalar.lt (Scalar.abs y) (Scalar.epsilon : Fl F) = true
    · rw [if_pos c2, if_pos c2]
      exact .nil
    · rw [if_neg c2, if_neg c2]
      exact push (hz.neg.div hF hy (hy.ne_zero c2) (by omega) (by omega) r1 r4 r3)
  · rw [if_neg c1, if_neg c1]
    have d1 := hy.mul hF hy (by omega) (by omega) (by omega) (by omega)
    have d2 := (hx.mul hF hz (by omega) (by omega) (by omega) (by omega)).mulParam hF onGrid_lit4
      (by omega) (by omega) (by omega) (by omega)
    have d := (d1.mono (show m + m + 0 ≤ m + m by omega) (show b + b ≤ b + b + 2 by omega)).sub hF d2
      (by omega) (by omega) (by omega) (by omega)
    have x2 := hx.mulParam hF onGrid_lit2 (by omega) (by omega) (by omega) (by omega)
    have x0 : (x * lit 2).toReal ≠ 0 := hx.double_ne_zero hF (hx.ne_zero c1) (by omega) (by omega)
      (by omega)
    have d0 : ScaledFl (k + k) (m + m) ((b + 2) + (b + 2)) (y * y - x * z * lit 4)
        (y' * y' - x' * z' * lit 4) := d.mono (by omega) (by omega)
    rw [(scaled_zero (m := m) (b := b)).lt d0, d0.abs.lt_epsilon E.old_squared E.new_squared]
    by_cases c3 : Scalar.lt (lit 0 : Fl F) (y * y - x * z * lit 4) = true
    · rw [if_pos c3, if_pos c3]
      have nn : 0 ≤ (y * y - x * z * lit 4).toReal := by
        obtain ⟨r, hr, _, er, _, _, _⟩ := d0
        rw [er, lit_zero, lt_fin] at c3
        rw [er, toReal_fin]
        exact c3.le
      have s := d0.sqrt hF nn (by omega) (by omega) (by omega) (by omega) (by omega)
      have ny := hy.neg.mono (show m - (p : ℤ) ≤ m by omega) (show b ≤ b + 2 by omega)
      have n1 := ny.sub hF s (by omega) (by omega) (by omega) (by omega)
      have n2 := ny.add hF s (by omega) (by omega) (by omega) (by omega)
      have q1 : SameRoot p g _ _ := n1.div (g := g) hF x2 x0 (by omega) (by omega) r1 r4 r3
      have q2 : SameRoot p g _ _ := n2.div (g := g) hF x2 x0 (by omega) (by omega) r1 r4 r3
      exact (avPush_rel .nil q1).bind fun _ _ h => avPush_rel h q2
    · rw [if_neg c3, if_neg c3]
      by_cases c4 : Scalar.lt (Scalar.abs (y * y - x * z * lit 4)) (Scalar.epsilon : Fl F) = true
      · rw [if_pos c4, if_pos c4]
        exact push (hy.neg.div hF x2 x0 (by omega) (by omega) r1 r4 r3)
      · rw [if_neg c4, if_neg c4]
        exact .nil

theorem sameRoot_list {l l' : List (Fl F)} (h : List.Forall₂ (SameRoot p g) l l') : l' = l := by
  induction h with
  | nil => rfl
  | cons h _ ih => rw [ih, h.1]

theorem roots_square_scaled (hF : F.Binary p low top) (R : RootRoom p low top k m b g)
    (E : CoarseGrid F k m) {x y z x' y' z' : Fl F} (hx : ScaledFl k m b x x')
    (hy : ScaledFl k m b y y') (hz : ScaledFl k m b z z') :
    rootsSquare x' y' z' = rootsSquare x y z :=
  ((rootsTwo_scaled hF R E 2 hx hy hz).mono fun _ _ h => (sameRoot_list h).symm).eq

theorem roots_cubic_scaled (hF : F.Binary p low top) (R : RootRoom p low top k m b g)
    (E : CoarseGrid F k m) {w x y z w' x' y' z' : Fl F} (hw : ScaledFl k m b w w')
    (hx : ScaledFl k m b x x') (hy : ScaledFl k m b y y') (hz : ScaledFl k m b z z') :
    rootsCubic w' x' y' z' = rootsCubic w x y z := by
  by_cases c : Scalar.lt (Scalar.abs w) (Scalar.epsilon : Fl F) = true
  · have e : ∀ {a b c d : Fl F}, Scalar.lt (Scalar.abs a) (Scalar.epsilon : Fl F) = true →
        rootsCubic a b c d = rootsTwo 3 b c d := by
      intro a b c d h
      unfold rootsCubic
      dsimp only
      rw [if_pos h]
      rfl
    have c' := c
    rw [← hw.abs.lt_epsilon E.old.le E.new.le] at c'
    rw [e c, e c']
    exact ((rootsTwo_scaled hF R E 3 hx hy hz).mono fun _ _ h => (sameRoot_list h).symm).eq
  · have c' := c
    rw [← hw.abs.lt_epsilon E.old.le E.new.le] at c'
    obtain ⟨r1, r2, r3, r4, r5, r6, r7, r8, r9, r10, r11, r12, r13, r14⟩ := R
    have w0 := hw.ne_zero c
    have q1 := (hx.div (g := g) hF hw w0 (by omega) (by omega) r1 r4 r3).1
    have q2 := (hy.div (g := g) hF hw w0 (by omega) (by omega) r1 r4 r3).1
    have q3 := (hz.div (g := g) hF hw w0 (by omega) (by omega) r1 r4 r3).1
    unfold rootsCubic
    dsimp only
    rw [if_neg c, if_neg c', q1, q2, q3]

/-- **C141** (roots): multiplying all coefficients by `2^k` leaves the roots as they are. -/
theorem C141_roots (hF : F.Binary p low top) (R : RootRoom p low top k m b g) (hk : low ≤ k)
    (hk' : k ≤ top) (E : CoarseGrid F k m) {w x y z : Fl F} (hw : OnGrid m b w)
    (hx : OnGrid m b x) (hy : OnGrid m b y) (hz : OnGrid m b z) :
    rootsSquare (x * twoPow F k) (y * twoPow F k) (z * twoPow F k) = rootsSquare x y z ∧
    rootsCubic (w * twoPow F k) (x * twoPow F k) (y * twoPow F k) (z * twoPow F k) =
      rootsCubic w x y z := by
  have up : ∀ {x : Fl F}, OnGrid m b x → ScaledFl k m b x (x * twoPow F k) := by
    intro x hx
    obtain ⟨r1, r2, r3, r4, r5, r6, r7, r8, r9, r10, r11, r12, r13, r14⟩ := R
    exact hx.scaled hF hk hk' (by omega) (by omega) (by omega) (by omega)
  exact ⟨roots_square_scaled hF R E (up hx) (up hy) (up hz),
    roots_cubic_scaled hF R E (up hw) (up hx) (up hy) (up hz)⟩

/-! ### Predicates -/

theorem SegmentRoom.up (hF : F.Binary p low top) (R : SegmentRoom p low top n k m b g)
    {x : PointN (Fl F) n} (hx : PointOnGrid m b x) : ScaledPt k m b x (timesTwoPow k x) := by
  obtain ⟨r1, r2, r3, r4, r5, r6, r7, r8, r9, r10, r11, r12, r13, r14, r15, r16⟩ := R
  exact hx.scaled hF r1 r2 (by omega) (by omega) (by omega) (by omega)

theorem SegmentRoom.square (hF : F.Binary p low top) (R : SegmentRoom p low top n k m b g)
    {x y x' y' : PointN (Fl F) n} (hx : ScaledPt k m b x x') (hy : ScaledPt k m b y y') :
    ScaledFl (k + k) (m + m) (b + 1 + (b + 1) + n) (Point.squaredLength (x - y) : Fl F)
      (Point.squaredLength (x' - y')) ∧ 0 ≤ (Point.squaredLength (x - y) : Fl F).toReal := by
  obtain ⟨r1, r2, r3, r4, r5, r6, r7, r8, r9, r10, r11, r12, r13, r14, r15, r16⟩ := R
  exact (hx.sub hF hy (by omega) (by omega) (by omega) (by omega)).squaredLength hF (by omega)
    (by omega) (by omega) (by omega)

/-- Exponents for which the tolerance and its square neither underflow nor overflow: the tolerance
is a multiple of `2^m` of size at most `2^b`. -/
structure TolRoom (low top k m b : ℤ) : Prop where
  k_lo : low ≤ k
  k_hi : k ≤ top
  lo : low ≤ 2 * m
  lo' : low ≤ 2 * m + 2 * k
  lo1 : low ≤ m
  lo1' : low ≤ m + k
  hi : 2 * b ≤ top
  hi' : 2 * b + 2 * k ≤ top
  hi1 : b ≤ top
  hi1' : b + k ≤ top

theorem TolRoom.up {m b : ℤ} (hF : F.Binary p low top) (R : TolRoom low top k m b) {x : Fl F}
    (hx : OnGrid m b x) : ScaledFl k m b x (x * twoPow F k) :=
  hx.scaled hF R.k_lo R.k_hi R.lo1 R.lo1' R.hi1 R.hi1'

theorem TolRoom.square {m b : ℤ} (hF : F.Binary p low top) (R : TolRoom low top k m b) {x : Fl F}
    (hx : OnGrid m b x) : ScaledFl (k + k) (m + m) (b + b) (x * x)
      (x * twoPow F k * (x * twoPow F k)) := by
  have h := R.up hF hx
  obtain ⟨r1, r2, r3, r4, r5, r6, r7, r8, r9, r10⟩ := R
  exact h.mul hF h (by omega) (by omega) (by omega) (by omega)

theorem quad_colinear_scaled (hF : F.Binary p low top) (R : SegmentRoom p low top n k m b g)
    (E : CoarseGrid F k m) {q q' : QuadraticBezier (PointN (Fl F) n)}
    (hs : ScaledPt k m b q.start q'.start) (hc : ScaledPt k m b q.ctrl q'.ctrl)
    (he : ScaledPt k m b q.end_ q'.end_) {tol tol' : Fl F} {mt bt : ℤ}
    (ht : ScaledFl k mt bt tol tol') :
    OptRel Eq (q.arePointsColinear tol) (q'.arePointsColinear tol') :=
  OptRel.bind (Q := Eq) (segment_scaled hF R E hs he hc) fun _ _ h =>
    show Scalar.le _ _ = Scalar.le _ _ from (h.le ht).symm

theorem cubic_colinear_scaled (hF : F.Binary p low top) (R : SegmentRoom p low top n k m b g)
    (E : CoarseGrid F k m) {q q' : CubicBezier (PointN (Fl F) n)}
    (hs : ScaledPt k m b q.start q'.start) (hc : ScaledPt k m b q.ctrl1 q'.ctrl1)
    (hc' : ScaledPt k m b q.ctrl2 q'.ctrl2)
    (he : ScaledPt k m b q.end_ q'.end_) {tol tol' : Fl F} {mt bt : ℤ}
    (ht : ScaledFl k mt bt tol tol') :
    OptRel Eq (q.arePointsColinear tol) (q'.arePointsColinear tol') := by
  refine OptRel.bind (Q := Eq) (segment_scaled hF R E hs he hc) fun d d' h => ?_
  rw [h.le ht]
  split
  · exact OptRel.bind (Q := Eq) (segment_scaled hF R E hs he hc') fun _ _ h =>
      show Scalar.le _ _ = Scalar.le _ _ from (h.le ht).symm
  · exact rfl

/-- **C141** (`is_linear` and `is_a_point` of quadratic curves): with the tolerance in the same
units, the answers are the same. -/
theorem C141_quadratic_predicates (hF : F.Binary p low top) (R : SegmentRoom p low top n k m b g)
    (E : CoarseGrid F k m) {mt bt : ℤ} (T : TolRoom low top k mt bt)
    (q : QuadraticBezier (PointN (Fl F) n)) (hs : PointOnGrid m b q.start)
    (hc : PointOnGrid m b q.ctrl) (he : PointOnGrid m b q.end_) {tol : Fl F}
    (ht : OnGrid mt bt tol) :
    (q.mapPts (timesTwoPow k)).isLinear (tol * twoPow F k) = q.isLinear tol ∧
    (q.mapPts (timesTwoPow k)).isAPoint (tol * twoPow F k) = q.isAPoint tol := by
  have us := R.up hF hs
  have uc := R.up hF hc
  have ue := R.up hF he
  constructor
  · have lin : ∀ {q' : QuadraticBezier (PointN (Fl F) n)}, q' = q.mapPts (timesTwoPow k) →
        q'.isLinear (tol * twoPow F k) = q.isLinear tol := by
      intro q' hq
      have e1 : q'.start = timesTwoPow k q.start := by rw [hq]; rfl
      have e2 : q'.end_ = timesTwoPow k q.end_ := by rw [hq]; rfl
      have d := (R.square hF us ue).1.lt_epsilon E.old_squared E.new_squared
      rw [← e1, ← e2] at d
      unfold QuadraticBezier.isLinear
      rw [d]
      split
      · rfl
      · subst hq
        exact (quad_colinear_scaled hF R E us uc ue (T.up hF ht)).eq
    exact lin rfl
  · unfold QuadraticBezier.isAPoint
    dsimp only [QuadraticBezier.mapPts]
    rw [(R.square hF us ue).1.le (T.square hF ht), (R.square hF us uc).1.le (T.square hF ht)]

/-- **C141** (`is_linear` and `is_a_point` of cubic curves). -/
theorem C141_cubic_predicates (hF : F.Binary p low top) (R : SegmentRoom p low top n k m b g)
    (E : CoarseGrid F k m) {mt bt : ℤ} (T : TolRoom low top k mt bt)
    (c : CubicBezier (PointN (Fl F) n)) (hs : PointOnGrid m b c.start)
    (hc : PointOnGrid m b c.ctrl1) (hc' : PointOnGrid m b c.ctrl2) (he : PointOnGrid m b c.end_)
    {tol : Fl F} (ht : OnGrid mt bt tol) :
    (c.mapPts (timesTwoPow k)).isLinear (tol * twoPow F k) = c.isLinear tol ∧
    (c.mapPts (timesTwoPow k)).isAPoint (tol * twoPow F k) = c.isAPoint tol := by
  have us := R.up hF hs
  have uc := R.up hF hc
  have uc' := R.up hF hc'
  have ue := R.up hF he
  constructor
  · have lin : ∀ {q' : CubicBezier (PointN (Fl F) n)}, q' = c.mapPts (timesTwoPow k) →
        q'.isLinear (tol * twoPow F k) = c.isLinear tol := by
      intro q' hq
      have e1 : q'.start = timesTwoPow k c.start := by rw [hq]; rfl
      have e2 : q'.end_ = timesTwoPow k c.end_ := by rw [hq]; rfl
      have d := (R.square hF us ue).1.lt_epsilon E.old_squared E.new_squared
      rw [← e1, ← e2] at d
      unfold CubicBezier.isLinear
      rw [d]
      split
      · rfl
      · subst hq
        exact (cubic_colinear_scaled hF R E us uc uc' ue (T.up hF ht)).eq
    exact lin rfl
  · unfold CubicBezier.isAPoint
    dsimp only [CubicBezier.mapPts]
    rw [(R.square hF us ue).1.le (T.square hF ht), (R.square hF us uc).1.le (T.square hF ht),
      (R.square hF ue uc').1.le (T.square hF ht)]

/-! ### Bounding boxes -/

/-- Two boxes whose bounds are scaled. -/
def ScaledBox {N : ℕ} (k m b : ℤ) (B B' : Arr (Fl F × Fl F) N) : Prop :=
  ∀ i, ScaledFl k m b (B i).1 (B' i).1 ∧ ScaledFl k m b (B i).2 (B' i).2

/-- The box with all bounds multiplied by `2^k`. -/
noncomputable def boxTimesTwoPow {N : ℕ} (k : ℤ) (B : Arr (Fl F × Fl F) N) :
    Arr (Fl F × Fl F) N := fun i => ((B i).1 * twoPow F k, (B i).2 * twoPow F k)

theorem ScaledBox.eq_mul {N : ℕ} {B B' : Arr (Fl F × Fl F) N} (h : ScaledBox k m b B B')
    (hF : F.Binary p low top) (h1 : low ≤ k) (h2 : k ≤ top) : B' = boxTimesTwoPow k B :=
  funext fun i => Prod.ext ((h i).1.eq_mul hF h1 h2) ((h i).2.eq_mul hF h1 h2)

theorem ScaledBox.set {N : ℕ} {B B' : Arr (Fl F × Fl F) N} (h : ScaledBox k m b B B') (i : ℕ)
    {x y : Fl F × Fl F} (h1 : ScaledFl k m b x.1 y.1) (h2 : ScaledFl k m b x.2 y.2) :
    OptRel (ScaledBox k m b) (B.set? i x) (B'.set? i y) := by
  unfold Arr.set?
  split
  · intro j
    dsimp only
    split
    · exact ⟨h1, h2⟩
    · exact h j
  · trivial

theorem insertSorted_rel {l l' : List (Fl F)} (h : List.Forall₂ (ScaledFl k m b) l l') {x x' : Fl F}
    (hx : ScaledFl k m b x x') :
    OptRel (List.Forall₂ (ScaledFl k m b)) (insertSorted x l) (insertSorted x' l') := by
  induction h with
  | nil => exact List.Forall₂.cons hx .nil
  | @cons y y' l l' hy hl ih =>
    unfold insertSorted
    have e : partialCmp x' y' = partialCmp x y := by
      unfold partialCmp
      rw [hx.lt hy, hx.eqB hy, hy.lt hx]
    rw [e]
    split
    · trivial
    · revert ih
      cases insertSorted x l <;> cases insertSorted x' l' <;> intro ih
      · trivial
      · exact ih.elim
      · exact ih.elim
      · exact List.Forall₂.cons hy ih
    · exact List.Forall₂.cons hx (.cons hy hl)

theorem sortUnwrap_rel {l l' : List (Fl F)} (h : List.Forall₂ (ScaledFl k m b) l l') :
    OptRel (List.Forall₂ (ScaledFl k m b)) (sortUnwrap l) (sortUnwrap l') := by
  induction h with
  | nil => exact .nil
  | cons hx _ ih => exact OptRel.bind ih fun _ _ h => insertSorted_rel h hx

theorem avExtend_rel {α β : Type} {R : α → β → Prop} {c : ℕ} {xs : List α} {xs' : List β}
    (hx : List.Forall₂ R xs xs') {l : List α} {l' : List β} (h : List.Forall₂ R l l') :
    OptRel (List.Forall₂ R) (avExtend c l xs) (avExtend c l' xs') := by
  unfold avExtend
  induction hx generalizing l l' with
  | nil => exact h
  | cons hx _ ih =>
    rw [List.foldlM_cons, List.foldlM_cons]
    exact (avPush_rel h hx).bind fun _ _ h => ih h

theorem mapM_rel {α β α' β' : Type} {R : α → β → Prop} {Q : α' → β' → Prop} {f : α → Option α'}
    {f' : β → Option β'} {l : List α} {l' : List β} (h : List.Forall₂ R l l')
    (hf : ∀ a a', R a a' → OptRel Q (f a) (f' a')) :
    OptRel (List.Forall₂ Q) (l.mapM f) (l'.mapM f') := by
  induction h with
  | nil => exact .nil
  | cons hx _ ih =>
    rw [List.mapM_cons, List.mapM_cons]
    exact (hf _ _ hx).bind fun _ _ h1 => ih.bind fun _ _ h2 => List.Forall₂.cons h1 h2

theorem filter_rel {α β : Type} {R Q : α → β → Prop} {f : α → Bool} {f' : β → Bool} {l : List α}
    {l' : List β} (h : List.Forall₂ R l l')
    (hf : ∀ a a', R a a' → f' a' = f a ∧ (f a = true → Q a a')) :
    List.Forall₂ Q (l.filter f) (l'.filter f') := by
  induction h with
  | nil => exact .nil
  | @cons a a' l l' hx _ ih =>
    obtain ⟨h1, h2⟩ := hf _ _ hx
    rw [List.filter_cons, List.filter_cons, h1]
    by_cases c : f a = true
    · rw [if_pos c, if_pos c]
      exact .cons (h2 c) ih
    · rw [if_neg c, if_neg c]
      exact ih

theorem head_rel {α β : Type} {R : α → β → Prop} {l : List α} {l' : List β}
    (h : List.Forall₂ R l l') : OptRel R l.head? l'.head? := by
  cases h with
  | nil => trivial
  | cons h _ => exact h

theorem getLast_rel {α β : Type} {R : α → β → Prop} {l : List α} {l' : List β}
    (h : List.Forall₂ R l l') : OptRel R l.getLast? l'.getLast? := by
  rw [List.getLast?_eq_head?_reverse, List.getLast?_eq_head?_reverse]
  exact head_rel (List.rel_reverse h)

/-- From the candidate roots to the bounds of the box. -/
theorem bounds_scaled {M B : ℤ} {cap : ℕ} {roots roots' : Option (List (Fl F))}
    (hr : OptRel (List.Forall₂ (SameRoot p g)) roots roots') {ev ev' : Fl F → Option (Fl F)}
    (hev : ∀ t, OnGrid (-(g + p)) 0 t → OptRel (ScaledFl k M B) (ev t) (ev' t))
    {s e s' e' : Option (Fl F)} (hs : OptRel (ScaledFl k M B) s s')
    (he : OptRel (ScaledFl k M B) e e') :
    OptRel (fun x y : Fl F × Fl F => ScaledFl k M B x.1 y.1 ∧ ScaledFl k M B x.2 y.2)
      (do
        let extrema ← avExtend cap [] (← roots)
        let extrema := extrema.filter fun root => Scalar.lt (lit 0) root && Scalar.lt root (lit 1)
        let extrema ← extrema.mapM ev
        let extrema ← avPush cap extrema (← s)
        let extrema ← avPush cap extrema (← e)
        let extrema ← sortUnwrap extrema
        let lo ← extrema.head?
        let hi ← extrema.getLast?
        pure (lo, hi))
      (do
        let extrema ← avExtend cap [] (← roots')
        let extrema := extrema.filter fun root => Scalar.lt (lit 0) root && Scalar.lt root (lit 1)
        let extrema ← extrema.mapM ev'
        let extrema ← avPush cap extrema (← s')
        let extrema ← avPush cap extrema (← e')
        let extrema ← sortUnwrap extrema
        let lo ← extrema.head?
        let hi ← extrema.getLast?
        pure (lo, hi)) := by
  refine hr.bind fun r r' hrr => ?_
  refine (avExtend_rel hrr .nil).bind fun x x' hx => ?_
  have hfil : List.Forall₂ (fun t t' : Fl F => t' = t ∧ OnGrid (-(g + p)) 0 t)
      (x.filter fun root => Scalar.lt (lit 0) root && Scalar.lt root (lit 1))
      (x'.filter fun root => Scalar.lt (lit 0) root && Scalar.lt root (lit 1)) := by
    refine filter_rel hx ?_
    rintro _ t ⟨rfl, ht⟩
    refine ⟨rfl, fun c => ⟨rfl, ?_⟩⟩
    rw [Bool.and_eq_true] at c
    obtain ⟨f, m1, b1⟩ := ht
    obtain ⟨v, hv, rfl⟩ := isFinite_iff.1 f
    rw [lit_zero, lit_one, lt_fin, lt_fin] at c
    refine ⟨trivial, m1, ?_⟩
    rw [toReal_fin, abs_of_pos c.1, zpow_zero]
    exact c.2.le
  refine (mapM_rel (Q := ScaledFl k M B) hfil ?_).bind fun y y' hy => ?_
  · rintro _ t ⟨rfl, ht⟩
    exact hev t ht
  refine hs.bind fun u u' hu => ?_
  refine (avPush_rel hy hu).bind fun y y' hy => ?_
  refine he.bind fun v v' hv => ?_
  refine (avPush_rel hy hv).bind fun y y' hy => ?_
  refine (sortUnwrap_rel hy).bind fun y y' hy => ?_
  refine (head_rel hy).bind fun a a' ha => ?_
  refine (getLast_rel hy).bind fun c c' hc => ?_
  exact ⟨ha, hc⟩

/-- **C141** (box of a line segment). -/
theorem C141_line_box (hF : F.Binary p low top) (hk : low ≤ k) (hk' : k ≤ top) (h1 : low ≤ m)
    (h2 : low ≤ m + k) (h3 : b ≤ top) (h4 : b + k ≤ top) (l : LineSegment (PointN (Fl F) n))
    (hs : PointOnGrid m b l.start) (he : PointOnGrid m b l.end_) :
    (l.mapPts (timesTwoPow k)).boundingBox = l.boundingBox.map (boxTimesTwoPow k) := by
  have us : ScaledPt k m b l.start (timesTwoPow k l.start) := hs.scaled hF hk hk' h1 h2 h3 h4
  have ue : ScaledPt k m b l.end_ (timesTwoPow k l.end_) := he.scaled hF hk hk' h1 h2 h3 h4
  refine OptRel.map_eq (R := ScaledBox k m b) _ ?_ fun a c h => h.eq_mul hF hk hk'
  unfold LineSegment.boundingBox
  dsimp only [LineSegment.mapPts]
  rw [iter_length_pn, iter_length_pn]
  refine OptRel.forRange (fun _ B B' => ScaledBox k m b B B') (Nat.zero_le n)
    (fun _ => ⟨scaled_zero, scaled_zero⟩) ?_
  intro i B B' _ _ hB
  refine (us.axis i).bind fun x x' hx => ?_
  refine (ue.axis i).bind fun y y' hy => ?_
  rw [hx.lt hy]
  split
  · exact hB.set i hx hy
  · exact hB.set i hy hx

/-- Exponents for which nothing underflows or overflows in the bounding box of a curve of degree
`d`. -/
structure BoxRoom (p : ℕ) (low top : ℤ) (d : ℕ) (k m b g : ℤ) : Prop where
  eval : ScaleRoom low top d k m b (-(g + p))
  roots : RootRoom p low top k m (b + 6) g

theorem onGrid_negOne : OnGrid 0 0 (lit (-1) : Fl F) := by
  simpa using onGrid_int (F := F) (z := -1) (by norm_num) (b := 0) (by norm_num)

theorem onGrid_negTwo : OnGrid 0 1 (lit (-2) : Fl F) := by
  simpa using onGrid_int (F := F) (z := -2) (by norm_num) (b := 1) (by norm_num)

/-- **C141** (box of a quadratic curve). -/
theorem C141_quadratic_box (hF : F.Binary p low top) (R : BoxRoom p low top 2 k m b g)
    (E : CoarseGrid F k m) (q : QuadraticBezier (PointN (Fl F) n)) (hs : PointOnGrid m b q.start)
    (hc : PointOnGrid m b q.ctrl) (he : PointOnGrid m b q.end_) :
    (q.mapPts (timesTwoPow k)).boundingBox = q.boundingBox.map (boxTimesTwoPow k) := by
  obtain ⟨A, r1, r2, r3, r4, r5, r6, r7, r8, r9, r10, r11, r12, r13, r14⟩ := R
  have a1 := A.k_lo
  have a2 := A.k_hi
  have a3 := A.lo
  have a4 := A.lo'
  have a5 := A.hi
  have a6 := A.hi'
  push_cast at a3 a4 a5 a6
  have up : ∀ {x : PointN (Fl F) n}, PointOnGrid m b x → ScaledPt k m b x (timesTwoPow k x) :=
    fun hx => hx.scaled hF a1 a2 (by omega) (by omega) (by omega) (by omega)
  have us := up hs
  have uc := up hc
  have ue := up he
  have d1 := (uc.sub hF us (by omega) (by omega) (by omega) (by omega)).mulParam hF onGrid_lit2
    (by omega) (by omega) (by omega) (by omega)
  have d2 := (ue.sub hF uc (by omega) (by omega) (by omega) (by omega)).mulParam hF onGrid_lit2
    (by omega) (by omega) (by omega) (by omega)
  have da := (d1.mulParam hF onGrid_negOne (by omega) (by omega) (by omega) (by omega)).add hF
    (d2.mono (show m + 0 + 0 ≤ m + 0 by omega) (show b + 1 + 1 ≤ b + 1 + 1 + 0 by omega))
    (by omega) (by omega) (by omega) (by omega)
  have sa := da.mono (show m ≤ m + 0 + 0 by omega) (show b + 1 + 1 + 0 + 1 ≤ b + 6 by omega)
  have sb := d1.mono (show m ≤ m + 0 by omega) (show b + 1 + 1 ≤ b + 6 by omega)
  refine OptRel.map_eq (R := ScaledBox k (m + 2 * -(g + p)) (b + 10)) _ ?_
    fun a c h => h.eq_mul hF a1 a2
  unfold QuadraticBezier.boundingBox
  dsimp only [QuadraticBezier.mapPts]
  rw [iter_length_pn, iter_length_pn]
  refine OptRel.forRange (fun _ B B' => ScaledBox k (m + 2 * -(g + p)) (b + 10) B B')
    (Nat.zero_le n) (fun _ => ⟨scaled_zero, scaled_zero⟩) ?_
  intro i B B' _ _ hB
  refine OptRel.bind (R := fun x y : Fl F × Fl F => ScaledFl k (m + 2 * -(g + p)) (b + 10) x.1 y.1 ∧
    ScaledFl k (m + 2 * -(g + p)) (b + 10) x.2 y.2) ?_ fun x y h => hB.set i h.1 h.2
  unfold QuadraticBezier.axisBounds
  refine (sa.axis i).bind fun x x' hx => ?_
  refine (sb.axis i).bind fun y y' hy => ?_
  refine bounds_scaled (p := p) (g := g) ?_ ?_ ((us.mono (by omega) (by omega)).axis i)
    ((ue.mono (by omega) (by omega)).axis i)
  · unfold LineSegment.root
    rw [hx.abs.lt_epsilon E.old.le E.new.le]
    split
    · exact .nil
    · rename_i c
      exact avPush_rel .nil (hy.neg.div hF hx (hx.ne_zero c) (by omega) (by omega) r1 r4 r3)
  · intro t ht
    exact ((quadratic_scaled hF A q hs hc he (ht.mono le_rfl (by omega))).2.1).axis i

/-- **C141** (box of a cubic curve). -/
theorem C141_cubic_box (hF : F.Binary p low top) (R : BoxRoom p low top 3 k m b g)
    (E : CoarseGrid F k m) (c : CubicBezier (PointN (Fl F) n)) (hs : PointOnGrid m b c.start)
    (hc : PointOnGrid m b c.ctrl1) (hc' : PointOnGrid m b c.ctrl2) (he : PointOnGrid m b c.end_) :
    (c.mapPts (timesTwoPow k)).boundingBox = c.boundingBox.map (boxTimesTwoPow k) := by
  obtain ⟨A, Q⟩ := R
  obtain ⟨r1, r2, r3, r4, r5, r6, r7, r8, r9, r10, r11, r12, r13, r14⟩ := id Q
  have a1 := A.k_lo
  have a2 := A.k_hi
  have a3 := A.lo
  have a4 := A.lo'
  have a5 := A.hi
  have a6 := A.hi'
  push_cast at a3 a4 a5 a6
  have up : ∀ {x : PointN (Fl F) n}, PointOnGrid m b x → ScaledPt k m b x (timesTwoPow k x) :=
    fun hx => hx.scaled hF a1 a2 (by omega) (by omega) (by omega) (by omega)
  have us := up hs
  have uc := up hc
  have uc' := up hc'
  have ue := up he
  have d1 := (uc.sub hF us (by omega) (by omega) (by omega) (by omega)).mulParam hF onGrid_lit3
    (by omega) (by omega) (by omega) (by omega)
  have d2 := (uc'.sub hF uc (by omega) (by omega) (by omega) (by omega)).mulParam hF onGrid_lit3
    (by omega) (by omega) (by omega) (by omega)
  have d3 := (ue.sub hF uc' (by omega) (by omega) (by omega) (by omega)).mulParam hF onGrid_lit3
    (by omega) (by omega) (by omega) (by omega)
  have m2 := d2.mulParam hF onGrid_negTwo (by omega) (by omega) (by omega) (by omega)
  have da1 := (d1.mono (show m + 0 + 0 ≤ m + 0 by omega)
    (show b + 1 + 2 ≤ b + 1 + 2 + 1 by omega)).add hF m2 (by omega) (by omega) (by omega) (by omega)
  have da := da1.add hF (d3.mono (show m + 0 + 0 ≤ m + 0 by omega)
    (show b + 1 + 2 ≤ b + 1 + 2 + 1 + 1 by omega)) (by omega) (by omega) (by omega) (by omega)
  have db := (d1.mulParam hF onGrid_negTwo (by omega) (by omega) (by omega) (by omega)).add hF
    (d2.mulParam hF onGrid_lit2 (by omega) (by omega) (by omega) (by omega))
    (by omega) (by omega) (by omega) (by omega)
  have sa := da.mono (show m ≤ m + 0 + 0 by omega) (show b + 1 + 2 + 1 + 1 + 1 ≤ b + 6 by omega)
  have sb := db.mono (show m ≤ m + 0 + 0 by omega) (show b + 1 + 2 + 1 + 1 ≤ b + 6 by omega)
  have sc := d1.mono (show m ≤ m + 0 by omega) (show b + 1 + 2 ≤ b + 6 by omega)
  refine OptRel.map_eq (R := ScaledBox k (m + 3 * -(g + p)) (b + 15)) _ ?_
    fun a c h => h.eq_mul hF a1 a2
  unfold CubicBezier.boundingBox
  dsimp only [CubicBezier.mapPts]
  rw [iter_length_pn, iter_length_pn]
  refine OptRel.forRange (fun _ B B' => ScaledBox k (m + 3 * -(g + p)) (b + 15) B B')
    (Nat.zero_le n) (fun _ => ⟨scaled_zero, scaled_zero⟩) ?_
  intro i B B' _ _ hB
  refine OptRel.bind (R := fun x y : Fl F × Fl F => ScaledFl k (m + 3 * -(g + p)) (b + 15) x.1 y.1 ∧
    ScaledFl k (m + 3 * -(g + p)) (b + 15) x.2 y.2) ?_ fun x y h => hB.set i h.1 h.2
  unfold CubicBezier.axisBounds
  refine (sa.axis i).bind fun x x' hx => ?_
  refine (sb.axis i).bind fun y y' hy => ?_
  refine (sc.axis i).bind fun z z' hz => ?_
  refine bounds_scaled (p := p) (g := g) ?_ ?_ ((us.mono (by omega) (by omega)).axis i)
    ((ue.mono (by omega) (by omega)).axis i)
  · exact rootsTwo_scaled hF Q E 2 hx hy hz
  · intro t ht
    exact ((cubic_scaled hF A c hs hc hc' he (ht.mono le_rfl (by omega))).2).axis i

/-! ### Solving for the parameter -/

/-- Squared lengths of points on the grid, compared with the square of the tolerance. -/
theorem le_epsilon_square (hF : F.Binary p low top) (heps : F.epsilon = 2 ^ (1 - (p : ℤ)))
    (hp : low ≤ 2 - 2 * p) (hp' : 2 - 2 * (p : ℤ) ≤ top) (E : CoarseGrid F k m) {x y : Fl F}
    (h : ScaledFl (k + k) (m + m) b x y) (h0 : 0 ≤ x.toReal) :
    Scalar.le y (Scalar.epsilon * Scalar.epsilon : Fl F) =
      Scalar.le x (Scalar.epsilon * Scalar.epsilon) := by
  obtain ⟨r, hr, hr', rfl, rfl, m1, _⟩ := h
  rw [toReal_fin] at h0
  have e1 : F.epsilon * F.epsilon = 2 ^ (2 - 2 * (p : ℤ)) := by
    rw [heps, ← zpow_add₀ (by norm_num)]
    congr 1
    ring
  have ok : (2 : ℝ) ^ (2 - 2 * (p : ℤ)) ∈ F.grid ∧ |(2 : ℝ) ^ (2 - 2 * (p : ℤ))| ≤ F.max := by
    refine ⟨hF.two_mem hp, ?_⟩
    rw [abs_of_pos (by positivity)]
    exact (two_zpow_mono hp').trans hF.top_le
  have e2 : (Scalar.epsilon * Scalar.epsilon : Fl F) = fin _ ok := by
    rw [epsilon_eq, fin_mul, e1, F.round_of_mem ok]
  have ep := F.epsilon_pos
  have s1 : (2 : ℝ) ^ (2 - 2 * (p : ℤ)) < 2 ^ (m + m) := by
    rw [← e1, zpow_add₀ (by norm_num)]
    exact mul_lt_mul'' E.old E.old ep.le ep.le
  have s2 : (2 : ℝ) ^ (2 - 2 * (p : ℤ)) < 2 ^ (m + m + (k + k)) := by
    rw [← e1, show m + m + (k + k) = m + k + (m + k) by ring, zpow_add₀ (by norm_num)]
    exact mul_lt_mul'' E.new E.new ep.le ep.le
  have hk : (0 : ℝ) < 2 ^ (k + k) := by positivity
  rw [e2, Bool.eq_iff_iff, le_fin, le_fin]
  rcases h0.eq_or_lt with c | c
  · subst c
    rw [mul_zero]
  · have g1 := m1.le_abs c.ne'
    rw [abs_of_pos c] at g1
    have g2 : (2 : ℝ) ^ (m + m + (k + k)) ≤ 2 ^ (k + k) * r := by
      rw [zpow_add₀ (by norm_num) (m + m), mul_comm]
      gcongr
    exact ⟨fun g => absurd (g2.trans g) (not_le.2 s2), fun g => absurd (g1.trans g) (not_le.2 s1)⟩

/-- The grid of the coordinates when the square of the tolerance is used too. -/
structure SolveRoom (F : FloatFormat) (p : ℕ) (low top : ℤ) (n : ℕ) (k m b g : ℤ) : Prop where
  eps : F.epsilon = 2 ^ (1 - (p : ℤ))
  eps_lo : low ≤ 2 - 2 * p
  eps_hi : 2 - 2 * (p : ℤ) ≤ top
  grid : CoarseGrid F k m
  segment : SegmentRoom p low top n k m b g
  roots : RootRoom p low top k m (b + 6) g

theorem keep_roots {l l' : Option (List (Fl F))} (h : l' = l)
    (f : List (Fl F) → Option (List (Fl F))) : OptRel Eq (l >>= f) (l' >>= f) := by
  subst h
  exact OptRel.refl _

/-- The test for degenerate curves at the beginning of `solve_t_for_axis`. -/
theorem degenerate_rel {α : Type} {j j' : Bool → Option α} {pt pt' sh sh' : Bool}
    {col col' : Option Bool} (hj : ∀ d, OptRel Eq (j d) (j' d)) (hpt : pt' = pt) (hsh : sh' = sh)
    (hcol : OptRel (fun a a' => (a && sh) = (a' && sh)) col col') :
    OptRel Eq
      (if pt = true then (do let d ← pure true; j d)
        else (do let c ← col; let d ← pure (c && sh); j d))
      (if pt' = true then (do let d ← pure true; j' d)
        else (do let c ← col'; let d ← pure (c && sh'); j' d)) := by
  subst hpt hsh
  split
  · exact hj true
  · refine hcol.bind fun a a' h => ?_
    show OptRel Eq (j (a && _)) (j' (a' && _))
    rw [h]
    exact hj _

/-- **C141** (`solve_t_for_axis` of quadratic curves): the same parameters. -/
theorem C141_quadratic_solve (hF : F.Binary p low top) (R : SolveRoom F p low top n k m b g)
    (q : QuadraticBezier (PointN (Fl F) n)) (hs : PointOnGrid m b q.start)
    (hc : PointOnGrid m b q.ctrl) (he : PointOnGrid m b q.end_) {value : Fl F}
    (hv : OnGrid m b value) (axis : ℕ) :
    (q.mapPts (timesTwoPow k)).solveTForAxis (value * twoPow F k) axis =
      q.solveTForAxis value axis := by
  obtain ⟨heps, hp, hp', E, R, Q⟩ := R
  have us := R.up hF hs
  have uc := R.up hF hc
  have ue := R.up hF he
  have uv : ScaledFl k m b value (value * twoPow F k) := by
    obtain ⟨r1, r2, r3, r4, r5, r6, r7, r8, r9, r10, r11, r12, r13, r14, r15, r16⟩ := R
    exact hv.scaled hF r1 r2 (by omega) (by omega) (by omega) (by omega)
  have pt : (q.mapPts (timesTwoPow k)).isAPoint Scalar.epsilon = q.isAPoint Scalar.epsilon := by
    unfold QuadraticBezier.isAPoint
    dsimp only [QuadraticBezier.mapPts]
    rw [le_epsilon_square hF heps hp hp' E (R.square hF us ue).1 (R.square hF us ue).2,
      le_epsilon_square hF heps hp hp' E (R.square hF us uc).1 (R.square hF us uc).2]
  have sh := (R.square hF us ue).1.lt_epsilon E.old_squared E.new_squared
  have col := quad_colinear_scaled (q := q) (q' := q.mapPts (timesTwoPow k)) hF R E us uc ue
    (scaled_zero (F := F) (m := m) (b := b))
  refine OptRel.eq ?_
  unfold QuadraticBezier.solveTForAxis
  refine degenerate_rel (fun dg => ?_) pt sh (col.mono fun a a' h => by rw [h])
  · split
    · exact rfl
    · refine (us.axis axis).bind fun s s' hs => ?_
      refine (uc.axis axis).bind fun c c' hc => ?_
      refine (ue.axis axis).bind fun e e' he => ?_
      obtain ⟨r1, r2, r3, r4, r5, r6, r7, r8, r9, r10, r11, r12, r13, r14⟩ := id Q
      obtain ⟨-, -, -, -, -, -, -, -, l1, l2, -, -, l3, l4, l5, l6⟩ := R
      have c2 := hc.mulParam hF onGrid_negTwo (by omega) (by omega) (by omega) (by omega)
      have a1 := (hs.mono (show m + 0 ≤ m by omega) (show b ≤ b + 1 by omega)).add hF c2 (by omega)
        (by omega) (by omega) (by omega)
      have a2 := a1.add hF (he.mono (show m + 0 ≤ m by omega) (show b ≤ b + 1 + 1 by omega))
        (by omega) (by omega) (by omega) (by omega)
      have b1 := (hs.mulParam hF onGrid_negTwo (by omega) (by omega) (by omega) (by omega)).add hF
        (hc.mulParam hF onGrid_lit2 (by omega) (by omega) (by omega) (by omega)) (by omega)
        (by omega) (by omega) (by omega)
      have c1 := hs.sub hF uv (by omega) (by omega) (by omega) (by omega)
      exact keep_roots (roots_square_scaled hF Q E (a2.mono (by omega) (by omega))
        (b1.mono (by omega) (by omega)) (c1.mono le_rfl (by omega))) _

/-- A point with a coordinate that is not zero has a squared length of at least the square of the
grid. -/
theorem squaredLength_ge (hF : F.Binary p low top) {x y : PointN (Fl F) n}
    (h : ScaledPt k m b x y) (h1 : low ≤ m + m) (h2 : low ≤ m + m + (k + k))
    (h3 : b + b + n ≤ top) (h4 : b + b + n + (k + k) ≤ top) {i : Fin n}
    (hi : (x.coords i).toReal ≠ 0) :
    (2 : ℝ) ^ (m + m) ≤ (Point.squaredLength x : Fl F).toReal := by
  have key : ∀ (l : List (Fin n)) (j : ℕ) (u v : Fl F), j + l.length ≤ n →
      ScaledFl (k + k) (m + m) (b + b + j) u v → 0 ≤ u.toReal →
      (i ∈ l ∨ (2 : ℝ) ^ (m + m) ≤ u.toReal) →
      (2 : ℝ) ^ (m + m) ≤ (l.foldl (fun s i => s + x.coords i * x.coords i) u).toReal := by
    intro l
    induction l with
    | nil =>
      intro j u v _ _ _ h
      rcases h with h | h
      · simp at h
      · exact h
    | cons a l ih =>
      intro j u v hj hu hu0 hor
      rw [List.length_cons] at hj
      have a1 := (h a).mul hF (h a) h1 h2 (by omega) (by omega)
      have a2 := hu.add hF (a1.mono le_rfl (show b + b ≤ b + b + (j : ℤ) by omega)) h1 h2
        (by omega) (by omega)
      obtain ⟨r, hr, _, e, _, _, _⟩ := id hu
      obtain ⟨s, hs, _, e1, _, ms, _⟩ := h a
      obtain ⟨w, hw, _, e2, _, _, _⟩ := id a1
      obtain ⟨z, hz, _, e3, _, _, _⟩ := id a2
      have ew : F.round (s * s) = fin w hw := by rw [← e2, e1, fin_mul]
      have ez : F.round (r + w) = fin z hz := by rw [← e3, e2, e, fin_add]
      have w0 : 0 ≤ w := round_nonneg ew (mul_self_nonneg s)
      rw [e, toReal_fin] at hu0
      have zr : z = F.rnd (r + w) := by
        unfold FloatFormat.round at ez
        split at ez
        · injection ez with h; exact h.symm
        · cases ez
      have wr : w = F.rnd (s * s) := by
        unfold FloatFormat.round at ew
        split at ew
        · injection ew with h; exact h.symm
        · cases ew
      have z1 : r ≤ z := by
        rw [zr]
        conv_lhs => rw [← F.rnd_of_mem r hr.1]
        exact F.rnd_mono (by linarith)
      have z2 : w ≤ z := by
        rw [zr]
        conv_lhs => rw [← F.rnd_of_mem w hw.1]
        exact F.rnd_mono (by linarith)
      rw [List.foldl_cons]
      refine ih (j + 1) _ _ (by omega) (by
        have : b + b + ((j + 1 : ℕ) : ℤ) = b + b + j + 1 := by push_cast; ring
        rw [this]; exact a2) (by rw [e3, toReal_fin]; linarith) ?_
      rw [e3, toReal_fin]
      rcases hor with hor | hor
      · rcases List.mem_cons.1 hor with rfl | hor
        · right
          rw [e1, toReal_fin] at hi
          refine le_trans ?_ z2
          have g1 : (2 : ℝ) ^ (m + m) ≤ s * s := by
            rw [zpow_add₀ (by norm_num), ← abs_mul_abs_self s]
            have := ms.le_abs hi
            exact mul_le_mul this this (by positivity) (abs_nonneg _)
          rw [wr]
          conv_lhs => rw [← F.rnd_of_mem _ (hF.two_mem h1)]
          exact F.rnd_mono g1
        · exact .inl hor
      · right
        rw [e, toReal_fin] at hor
        exact hor.trans z1
  exact key (List.finRange n) 0 _ _ (by simp) scaled_zero (by rw [lit_zero]; exact le_rfl)
    (.inl (List.mem_finRange i))

theorem squaredLength_zero {x : PointN (Fl F) n} (h : ∀ i, x.coords i = lit 0) :
    (Point.squaredLength x : Fl F) = lit 0 := by
  show (List.finRange n).foldl (fun s i => s + x.coords i * x.coords i) (lit 0) = _
  have step : (lit 0 : Fl F) + lit 0 * lit 0 = lit 0 := by
    rw [lit_zero, fin_mul, zero_mul, F.round_of_mem F.zero_ok, fin_add, add_zero,
      F.round_of_mem F.zero_ok]
  have : ∀ l : List (Fin n), l.foldl (fun s i => s + x.coords i * x.coords i) (lit 0) = lit 0 := by
    intro l
    induction l with
    | nil => rfl
    | cons a l ih => rw [List.foldl_cons, h, step, ih]
  exact this _

/-- If one difference is short, so is the other. -/
theorem short_symm (hF : F.Binary p low top) (R : SegmentRoom p low top n k m b g)
    (E : CoarseGrid F k m) {x y x' y' : PointN (Fl F) n} (hx : ScaledPt k m b x x')
    (hy : ScaledPt k m b y y')
    (h : Scalar.lt (Point.squaredLength (x - y) : Fl F) Scalar.epsilon = true) :
    Scalar.lt (Point.squaredLength (y - x) : Fl F) Scalar.epsilon = true := by
  obtain ⟨sq, sq0⟩ := R.square hF hx hy
  have hk := sq
  obtain ⟨r1, r2, r3, r4, r5, r6, r7, r8, r9, r10, r11, r12, r13, r14, r15, r16⟩ := R
  have v := hx.sub hF hy (by omega) (by omega) (by omega) (by omega)
  have co : ∀ i, (x.coords i).toReal = (y.coords i).toReal := by
    intro i
    by_contra hne
    have : ((x - y).coords i).toReal ≠ 0 := by
      obtain ⟨r, hr, _, e1, _, m1, b1⟩ := hx i
      obtain ⟨s, hs, _, e2, _, m2, b2⟩ := hy i
      show (x.coords i - y.coords i).toReal ≠ 0
      rw [e1, e2, toReal_fin, toReal_fin] at hne
      have l : |r - s| ≤ 2 ^ (b + 1) := by
        rw [zpow_add₀ (by norm_num), zpow_one]
        have := abs_sub r s
        linarith
      obtain ⟨hz, ez, _⟩ := round_bounded hF l (by omega) (by omega)
      rw [e1, e2, fin_sub, ez, toReal_fin]
      have := rnd_ne_zero hF ((m1.sub m2).le_abs (sub_ne_zero.2 hne)) (by omega)
      intro hc
      rw [hc, abs_zero] at this
      exact absurd this (not_le.2 (by positivity))
    have ge := squaredLength_ge hF v (by omega) (by omega) (by omega) (by omega) this
    obtain ⟨r, hr, _, er, _, _, _⟩ := sq
    rw [er, epsilon_eq, lt_fin] at h
    rw [er, toReal_fin] at ge
    exact absurd (E.old_squared.trans ge) (not_le.2 h)
  have z : ∀ i, (y - x).coords i = lit 0 := by
    intro i
    obtain ⟨r, hr, _, e1, _, m1, b1⟩ := hx i
    obtain ⟨s, hs, _, e2, _, m2, b2⟩ := hy i
    have c := co i
    rw [e1, e2, toReal_fin, toReal_fin] at c
    show y.coords i - x.coords i = lit 0
    rw [e1, e2, fin_sub, c, sub_self, F.round_of_mem F.zero_ok, lit_zero]
  rw [squaredLength_zero z, lit_zero, epsilon_eq, lt_fin]
  exact F.epsilon_pos

/-- Lengths of points on the grid, compared with the tolerance. -/
theorem sqrt_le_epsilon (hF : F.Binary p low top) (E : CoarseGrid F k m) {x y : Fl F}
    (h : ScaledFl (k + k) (m + m) (b + b) x y) (h0 : 0 ≤ x.toReal) (h1 : low ≤ m)
    (h2 : low ≤ m + k) (h3 : b ≤ top) (h4 : b + k ≤ top) (h5 : low ≤ b) :
    Scalar.le (Scalar.sqrt y) (Scalar.epsilon : Fl F) = Scalar.le (Scalar.sqrt x) Scalar.epsilon := by
  obtain ⟨u, hu, hu', e1, e2, _, _⟩ := h.sqrt hF h0 h1 h2 h3 h4 h5
  obtain ⟨r, hr, hr', rfl, rfl, m1, _⟩ := h
  rw [toReal_fin] at h0
  rw [e1, e2, epsilon_eq, Bool.eq_iff_iff, le_fin, le_fin]
  have es : F.round (Real.sqrt r) = fin u hu := by
    rw [← e1]
    exact (if_neg (not_lt.2 h0)).symm
  have ur : u = F.rnd (Real.sqrt r) := by
    unfold FloatFormat.round at es
    split at es
    · injection es with h; exact h.symm
    · cases es
  by_cases c : r = 0
  · have : u = 0 := by rw [ur, c, Real.sqrt_zero, F.rnd_of_mem 0 F.zero_ok.1]
    rw [this, mul_zero]
  · have q1 : (2 : ℝ) ^ m ≤ Real.sqrt r := by
      rw [Real.le_sqrt (by positivity) h0, sq, ← zpow_add₀ (by norm_num)]
      have := m1.le_abs c
      rwa [abs_of_nonneg h0] at this
    have g1 : (2 : ℝ) ^ m ≤ u := by
      rw [ur]
      conv_lhs => rw [← F.rnd_of_mem _ (hF.two_mem h1)]
      exact F.rnd_mono q1
    have g2 : (2 : ℝ) ^ (m + k) ≤ 2 ^ k * u := by
      rw [zpow_add₀ (by norm_num), mul_comm]
      gcongr
    exact ⟨fun g => absurd (g2.trans g) (not_le.2 E.new), fun g => absurd (g1.trans g) (not_le.2 E.old)⟩

theorem onGrid_lit6 : OnGrid 0 3 (lit 6 : Fl F) := by
  simpa using onGrid_int (F := F) (z := 6) (by norm_num) (b := 3) (by norm_num)

/-- **C141** (`solve_t_for_axis` of cubic curves): the same parameters. -/
theorem C141_cubic_solve (hF : F.Binary p low top) (R : SolveRoom F p low top n k m b g)
    (c : CubicBezier (PointN (Fl F) n)) (hs : PointOnGrid m b c.start)
    (hc : PointOnGrid m b c.ctrl1) (hc' : PointOnGrid m b c.ctrl2) (he : PointOnGrid m b c.end_)
    {value : Fl F} (hv : OnGrid m b value) (axis : ℕ) :
    (c.mapPts (timesTwoPow k)).solveTForAxis (value * twoPow F k) axis =
      c.solveTForAxis value axis := by
  obtain ⟨heps, hp, hp', E, R, Q⟩ := R
  have us := R.up hF hs
  have uc := R.up hF hc
  have uc' := R.up hF hc'
  have ue := R.up hF he
  have uv : ScaledFl k m b value (value * twoPow F k) := by
    obtain ⟨r1, r2, r3, r4, r5, r6, r7, r8, r9, r10, r11, r12, r13, r14, r15, r16⟩ := R
    exact hv.scaled hF r1 r2 (by omega) (by omega) (by omega) (by omega)
  have pt : (c.mapPts (timesTwoPow k)).isAPoint Scalar.epsilon = c.isAPoint Scalar.epsilon := by
    unfold CubicBezier.isAPoint
    dsimp only [CubicBezier.mapPts]
    rw [le_epsilon_square hF heps hp hp' E (R.square hF us ue).1 (R.square hF us ue).2,
      le_epsilon_square hF heps hp hp' E (R.square hF us uc).1 (R.square hF us uc).2,
      le_epsilon_square hF heps hp hp' E (R.square hF ue uc').1 (R.square hF ue uc').2]
  have sh := (R.square hF us ue).1.lt_epsilon E.old_squared E.new_squared
  have col : OptRel (fun a a' => (a && Scalar.lt (Point.squaredLength (c.start - c.end_) : Fl F)
        Scalar.epsilon) = (a' && Scalar.lt (Point.squaredLength (c.start - c.end_) : Fl F)
        Scalar.epsilon))
      (c.arePointsColinear Scalar.epsilon)
      ((c.mapPts (timesTwoPow k)).arePointsColinear Scalar.epsilon) := by
    cases cs : Scalar.lt (Point.squaredLength (c.start - c.end_) : Fl F) Scalar.epsilon
    · obtain ⟨a, ha⟩ := Option.isSome_iff_exists.1 (cubic_colinear_isSome c (Scalar.epsilon : Fl F))
      obtain ⟨a', ha'⟩ := Option.isSome_iff_exists.1
        (cubic_colinear_isSome (c.mapPts (timesTwoPow k)) (Scalar.epsilon : Fl F))
      rw [ha, ha']
      show (a && false) = (a' && false)
      rw [Bool.and_false, Bool.and_false]
    · have s1 := short_symm hF R E us ue cs
      have s2 : Scalar.lt (Point.squaredLength ((timesTwoPow k c.end_) - (timesTwoPow k c.start)) :
          Fl F) Scalar.epsilon = true := by
        rw [(R.square hF ue us).1.lt_epsilon E.old_squared E.new_squared]
        exact s1
      have d : ∀ {l : LineSegment (PointN (Fl F) n)} (z : PointN (Fl F) n),
          Scalar.lt (Point.squaredLength (l.end_ - l.start) : Fl F) Scalar.epsilon = true →
          l.distanceToPoint z = some (Scalar.sqrt (Point.squaredLength (l.start - z))) := by
        intro l z h
        unfold LineSegment.distanceToPoint
        dsimp only
        rw [if_pos h]
        rfl
      have col : ∀ {c : CubicBezier (PointN (Fl F) n)},
          Scalar.lt (Point.squaredLength (c.end_ - c.start) : Fl F) Scalar.epsilon = true →
          c.arePointsColinear Scalar.epsilon = some
            (Scalar.le (Scalar.sqrt (Point.squaredLength (c.start - c.ctrl1) : Fl F)) Scalar.epsilon &&
            Scalar.le (Scalar.sqrt (Point.squaredLength (c.start - c.ctrl2) : Fl F))
              Scalar.epsilon) := by
        intro c h
        unfold CubicBezier.arePointsColinear
        dsimp only
        rw [d (l := c.baseline) c.ctrl1 h, d (l := c.baseline) c.ctrl2 h]
        show (if Scalar.le (Scalar.sqrt (Point.squaredLength (c.start - c.ctrl1) : Fl F))
          Scalar.epsilon = true then _ else _) = _
        cases Scalar.le (Scalar.sqrt (Point.squaredLength (c.start - c.ctrl1) : Fl F)) Scalar.epsilon
        · rfl
        · rfl
      rw [col s1, col (c := c.mapPts (timesTwoPow k)) s2]
      have q : ∀ {z z' : PointN (Fl F) n}, ScaledPt k m b z z' →
          Scalar.le (Scalar.sqrt (Point.squaredLength (timesTwoPow k c.start - z') : Fl F))
            Scalar.epsilon =
          Scalar.le (Scalar.sqrt (Point.squaredLength (c.start - z) : Fl F)) Scalar.epsilon := by
        intro z z' hz
        obtain ⟨a, a0⟩ := R.square hF us hz
        obtain ⟨r1, r2, r3, r4, r5, r6, r7, r8, r9, r10, r11, r12, r13, r14, r15, r16⟩ := R
        exact sqrt_le_epsilon hF E (a.mono le_rfl
          (show b + 1 + (b + 1) + n ≤ b + 1 + n + (b + 1 + n) by omega)) a0 (by omega) (by omega)
          (by omega) (by omega) (by omega)
      show (_ && _) = (_ && _)
      have q1 := q uc
      have q2 := q uc'
      dsimp only [CubicBezier.mapPts]
      rw [q1, q2]
  refine OptRel.eq ?_
  unfold CubicBezier.solveTForAxis
  refine degenerate_rel (fun dg => ?_) pt sh col
  split
  · exact rfl
  · refine (us.axis axis).bind fun x x' h0 => ?_
    refine (uc.axis axis).bind fun y y' h1 => ?_
    refine (uc'.axis axis).bind fun z z' h2 => ?_
    refine (ue.axis axis).bind fun w w' h3 => ?_
    obtain ⟨r1, r2, r3, r4, r5, r6, r7, r8, r9, r10, r11, r12, r13, r14⟩ := id Q
    obtain ⟨-, -, -, -, -, -, -, -, l1, l2, -, -, l3, l4, l5, l6⟩ := R
    have x3 := h0.mulParam hF onGrid_lit3 (by omega) (by omega) (by omega) (by omega)
    have nx3 := h0.neg.mulParam hF onGrid_lit3 (by omega) (by omega) (by omega) (by omega)
    have y3 := h1.mulParam hF onGrid_lit3 (by omega) (by omega) (by omega) (by omega)
    have y6 := h1.mulParam hF onGrid_lit6 (by omega) (by omega) (by omega) (by omega)
    have z3 := h2.mulParam hF onGrid_lit3 (by omega) (by omega) (by omega) (by omega)
    have a1 := (h0.neg.mono (show m + 0 ≤ m by omega) (show b ≤ b + 2 by omega)).add hF y3 (by omega)
      (by omega) (by omega) (by omega)
    have a2 := a1.sub hF (z3.mono le_rfl (show b + 2 ≤ b + 2 + 1 by omega)) (by omega) (by omega)
      (by omega) (by omega)
    have a3 := a2.add hF (h3.mono (show m + 0 ≤ m by omega) (show b ≤ b + 2 + 1 + 1 by omega))
      (by omega) (by omega) (by omega) (by omega)
    have b1 := (x3.mono le_rfl (show b + 2 ≤ b + 3 by omega)).sub hF y6 (by omega) (by omega)
      (by omega) (by omega)
    have b2 := b1.add hF (z3.mono le_rfl (show b + 2 ≤ b + 3 + 1 by omega)) (by omega) (by omega)
      (by omega) (by omega)
    have c1 := nx3.add hF y3 (by omega) (by omega) (by omega) (by omega)
    have d1 := h0.sub hF uv (by omega) (by omega) (by omega) (by omega)
    exact keep_roots (roots_cubic_scaled hF Q E (a3.mono (by omega) (by omega))
      (b2.mono (by omega) (by omega)) (c1.mono (by omega) (by omega))
      (d1.mono le_rfl (by omega))) _

/-! ### In binary64 -/

section

variable (cosI acosI : ℝ → ℝ) (powI : ℝ → ℝ → ℝ)

theorem binary64_coarse {k : ℤ} (hk : -16 ≤ k) :
    CoarseGrid (binary64 cosI acosI powI) k (-10) := by
  have lt : ∀ e : ℤ, -52 < e → (binary64 cosI acosI powI).epsilon < 2 ^ e := by
    intro e he
    rw [binary64_epsilon]
    exact zpow_lt_zpow_right₀ (by norm_num) (by push_cast; omega)
  have le : ∀ e : ℤ, -52 ≤ e → (binary64 cosI acosI powI).epsilon ≤ 2 ^ e := by
    intro e he
    rw [binary64_epsilon]
    exact two_zpow_mono (by push_cast; omega)
  exact ⟨lt _ (by omega), lt _ (by omega), le _ (by omega), le _ (by omega)⟩

theorem binary64_solve_room {n : ℕ} (hn : n ≤ 50) {k : ℤ} (hk : -16 ≤ k) (hk' : k ≤ 100) :
    SolveRoom (binary64 cosI acosI powI) 53 (-1022) 1023 n k (-10) 10 100 := by
  refine ⟨binary64_epsilon cosI acosI powI, by norm_num, by norm_num,
    binary64_coarse cosI acosI powI hk, ?_, ?_⟩ <;> constructor <;> push_cast <;> omega

theorem binary64_box_room {d : ℕ} (hd : d ≤ 3) {k : ℤ} (hk : -16 ≤ k) (hk' : k ≤ 100) :
    BoxRoom 53 (-1022) 1023 d k (-10) 10 100 := by
  have : (d : ℤ) ≤ 3 := by exact_mod_cast hd
  constructor <;> constructor <;> push_cast <;> omega

theorem binary64_tol_room {k : ℤ} (hk : -16 ≤ k) (hk' : k ≤ 100) :
    TolRoom (-1022) 1023 k (-400) 10 := by
  constructor <;> omega

/-- **C141** in binary64, for cubic curves in at most 50 dimensions: coordinates that are multiples
of `2^-10` up to 1024 in size, factors from `2^-16` to `2^100`, tolerances up to 1024 that are
multiples of `2^-400`. -/
theorem C141_cubic_binary64 {n : ℕ} (hn : n ≤ 50) {k : ℤ} (hk : -16 ≤ k) (hk' : k ≤ 100)
    (c : CubicBezier (PointN (Fl (binary64 cosI acosI powI)) n))
    (hs : PointOnGrid (-10) 10 c.start) (hc : PointOnGrid (-10) 10 c.ctrl1)
    (hc' : PointOnGrid (-10) 10 c.ctrl2) (he : PointOnGrid (-10) 10 c.end_)
    {value tol : Fl (binary64 cosI acosI powI)} (hv : OnGrid (-10) 10 value)
    (ht : OnGrid (-400) 10 tol) :
    (c.mapPts (timesTwoPow k)).boundingBox = c.boundingBox.map (boxTimesTwoPow k) ∧
    (∀ axis, (c.mapPts (timesTwoPow k)).solveTForAxis (value * twoPow _ k) axis =
      c.solveTForAxis value axis) ∧
    (c.mapPts (timesTwoPow k)).isLinear (tol * twoPow _ k) = c.isLinear tol ∧
    (c.mapPts (timesTwoPow k)).isAPoint (tol * twoPow _ k) = c.isAPoint tol := by
  have hF := binary64_binary cosI acosI powI
  have E := binary64_coarse cosI acosI powI hk
  have S := binary64_solve_room cosI acosI powI hn hk hk'
  exact ⟨C141_cubic_box hF (binary64_box_room (by norm_num) hk hk') E c hs hc hc' he,
    fun axis => C141_cubic_solve hF S c hs hc hc' he hv axis,
    C141_cubic_predicates hF S.segment E (binary64_tol_room hk hk') c hs hc hc' he ht⟩

/-- The conditions hold for a cubic curve in the plane, in quarters of the unit. -/
example : ∃ (c : CubicBezier (PointN (Fl (binary64 cosI acosI powI)) 2)),
    PointOnGrid (-10) 10 c.start ∧ PointOnGrid (-10) 10 c.ctrl1 ∧ PointOnGrid (-10) 10 c.ctrl2 ∧
      PointOnGrid (-10) 10 c.end_ ∧ c.start ≠ c.end_ ∧ c.ctrl1 ≠ c.ctrl2 ∧
      SolveRoom (binary64 cosI acosI powI) 53 (-1022) 1023 2 (-2) (-10) 10 100 := by
  have i : ∀ z : ℤ, |z| ≤ 1024 → OnGrid (-10) 10 (lit (z : ℚ) : Fl (binary64 cosI acosI powI)) :=
    fun z hz => (integer_knot cosI acosI powI z hz).mono (by norm_num) le_rfl
  let pt : ℤ → ℤ → PointN (Fl (binary64 cosI acosI powI)) 2 := fun a b => ⟨![lit (a : ℚ), lit (b : ℚ)]⟩
  have g : ∀ a b : ℤ, |a| ≤ 1024 → |b| ≤ 1024 → PointOnGrid (-10) 10 (pt a b) := by
    intro a b ha hb j
    fin_cases j
    · exact i a ha
    · exact i b hb
  have ne : ∀ a b a' b' : ℤ, |a| ≤ 1024 → |a'| ≤ 1024 → a ≠ a' → pt a b ≠ pt a' b' := by
    intro a b a' b' ha ha' h e
    have : (lit (a : ℚ) : Fl (binary64 cosI acosI powI)) = lit (a' : ℚ) :=
      congrFun (congrArg PointN.coords e) 0
    rw [lit_int a ha, lit_int a' ha'] at this
    injection this with this
    exact h (by exact_mod_cast this)
  exact ⟨⟨pt 0 0, pt 1 3, pt 3 (-3), pt 4 1⟩, g _ _ (by norm_num) (by norm_num),
    g _ _ (by norm_num) (by norm_num), g _ _ (by norm_num) (by norm_num),
    g _ _ (by norm_num) (by norm_num), ne _ _ _ _ (by norm_num) (by norm_num) (by norm_num),
    ne _ _ _ _ (by norm_num) (by norm_num) (by norm_num),
    binary64_solve_room cosI acosI powI (by norm_num) (by norm_num) (by norm_num)⟩

/-- Rooms in binary32: the distance to a segment with integer coordinates up to 64. -/
example : SegmentRoom 24 (-126) 127 2 3 0 6 16 := by
  constructor <;> omega

/-- **C141** needs the coarse grid: in binary64 the curve with the control points 0, `2^-55`, 0 has
the box from 0 to 0; in units that are `2^55` times smaller its box reaches up to 1/2. -/
theorem C141_box_not :
    ∃ (q : QuadraticBezier (PointN (Fl (binary64 cosI acosI powI)) 1)),
      PointOnGrid (-55) 0 q.start ∧ PointOnGrid (-55) 0 q.ctrl ∧ PointOnGrid (-55) 0 q.end_ ∧
      (q.mapPts (timesTwoPow 55)).boundingBox ≠ q.boundingBox.map (boxTimesTwoPow 55) := by
  set F := binary64 cosI acosI powI with hF
  have B := binary64_binary cosI acosI powI
  rw [← hF] at B
  have ok : ∀ e : ℤ, |e| ≤ 100 → (2 : ℝ) ^ e ∈ F.grid ∧ |(2 : ℝ) ^ e| ≤ F.max := by
    intro e he
    have := abs_le.mp he
    refine ⟨B.two_mem (by omega), ?_⟩
    rw [abs_of_pos (by positivity)]
    exact (two_zpow_mono (by omega)).trans B.top_le
  have okn : ∀ e : ℤ, |e| ≤ 100 → -(2 : ℝ) ^ e ∈ F.grid ∧ |-(2 : ℝ) ^ e| ≤ F.max := by
    intro e he
    exact ⟨F.neg_mem _ (ok e he).1, by rw [abs_neg]; exact (ok e he).2⟩
  have c : ∀ (e : ℤ) (he : |e| ≤ 100), twoPow F e = fin (2 ^ e) (ok e he) :=
    fun e he => F.round_of_mem (ok e he)
  have cn : ∀ (e : ℤ) (he : |e| ≤ 100), -twoPow F e = fin (-2 ^ e) (okn e he) :=
    fun e he => by rw [c e he]; rfl
  have two : (lit 2 : Fl F) = twoPow F 1 := by
    rw [c 1 (by norm_num)]
    have := lit_int (F := F) 2 (by norm_num)
    push_cast at this
    rw [this]
    exact fin_congr (by norm_num)
  have nOne : (lit (-1) : Fl F) = -twoPow F 0 := by
    rw [cn 0 (by norm_num)]
    have := lit_int (F := F) (-1) (by norm_num)
    push_cast at this
    rw [this]
    exact fin_congr (by norm_num)
  have mul : ∀ e f g : ℤ, |e| ≤ 100 → |f| ≤ 100 → |g| ≤ 100 → e + f = g →
      twoPow F e * twoPow F f = twoPow F g := by
    intro e f g he hf hg h
    rw [c e he, c f hf, c g hg, fin_mul, ← zpow_add₀ (by norm_num), h, F.round_of_mem (ok g hg)]
  have nmul : ∀ e f g : ℤ, |e| ≤ 100 → |f| ≤ 100 → |g| ≤ 100 → e + f = g →
      -twoPow F e * twoPow F f = -twoPow F g := by
    intro e f g he hf hg h
    rw [cn e he, c f hf, cn g hg, fin_mul, neg_mul, ← zpow_add₀ (by norm_num), h,
      F.round_of_mem (okn g hg)]
  have muln : ∀ e f g : ℤ, |e| ≤ 100 → |f| ≤ 100 → |g| ≤ 100 → e + f = g →
      twoPow F e * -twoPow F f = -twoPow F g := by
    intro e f g he hf hg h
    rw [c e he, cn f hf, cn g hg, fin_mul, mul_neg, ← zpow_add₀ (by norm_num), h,
      F.round_of_mem (okn g hg)]
  have dbl : ∀ e f : ℤ, |e| ≤ 100 → |f| ≤ 100 → e + 1 = f →
      -twoPow F e + -twoPow F e = -twoPow F f := by
    intro e f he hf h
    have : -(2 : ℝ) ^ e + -2 ^ e = -2 ^ f := by
      rw [← h, zpow_add₀ (by norm_num), zpow_one]
      ring
    rw [cn e he, cn f hf, fin_add, this, F.round_of_mem (okn f hf)]
  have subz : ∀ e, |e| ≤ 100 → twoPow F e - lit 0 = twoPow F e := by
    intro e he
    rw [c e he, lit_zero, fin_sub, sub_zero, F.round_of_mem (ok e he)]
  have zsub : ∀ e, |e| ≤ 100 → (lit 0 : Fl F) - twoPow F e = -twoPow F e := by
    intro e he
    rw [c e he, lit_zero, fin_sub, zero_sub, F.round_of_mem (okn e he)]
    rfl
  have zup : (lit 0 : Fl F) * twoPow F 55 = lit 0 := by
    rw [lit_zero, c 55 (by norm_num), fin_mul, zero_mul, F.round_of_mem F.zero_ok]
  have zlt : Scalar.lt (lit 0 : Fl F) (lit 0) = false := by
    rw [Bool.eq_false_iff, ne_eq, lit_zero, lt_fin]
    exact lt_irrefl 0
  have zeq : Scalar.eq (lit 0 : Fl F) (lit 0) = true := by
    rw [lit_zero, eq_fin]
  have eps : F.epsilon = 2 ^ (-52 : ℤ) := by
    rw [hF]
    show (2 : ℝ) ^ (1 - ((53 : ℕ) : ℤ)) = _
    norm_num
  let pt : Fl F → PointN (Fl F) 1 := fun x => ⟨fun _ => x⟩
  -- the coefficients of the derivative
  have co : ∀ e : ℤ, |e| ≤ 90 → (twoPow F e - lit 0) * lit 2 = twoPow F (e + 1) ∧
      (lit 0 - twoPow F e) * lit 2 = -twoPow F (e + 1) ∧
      (twoPow F e - lit 0) * lit 2 * lit (-1) + (lit 0 - twoPow F e) * lit 2
        = -twoPow F (e + 2) := by
    intro e he
    obtain ⟨h1, h2⟩ := abs_le.mp he
    have a : ∀ i : ℤ, 0 ≤ i → i ≤ 2 → |e + i| ≤ 100 := fun i _ _ => abs_le.mpr ⟨by omega, by omega⟩
    have a0 : |e| ≤ 100 := abs_le.mpr ⟨by omega, by omega⟩
    have e1 : (twoPow F e - lit 0) * lit 2 = twoPow F (e + 1) := by
      rw [subz e a0, two, mul e 1 (e + 1) a0 (by norm_num) (a 1 (by norm_num) (by norm_num)) rfl]
    have e2 : (lit 0 - twoPow F e) * lit 2 = -twoPow F (e + 1) := by
      rw [zsub e a0, two, nmul e 1 (e + 1) a0 (by norm_num) (a 1 (by norm_num) (by norm_num)) rfl]
    refine ⟨e1, e2, ?_⟩
    rw [e1, e2, nOne, muln (e + 1) 0 (e + 1) (a 1 (by norm_num) (by norm_num)) (by norm_num)
      (a 1 (by norm_num) (by norm_num)) (by ring), dbl (e + 1) (e + 2)
      (a 1 (by norm_num) (by norm_num)) (a 2 (by norm_num) le_rfl) (by ring)]
  have box : ∀ q : QuadraticBezier (PointN (Fl F) 1), q.boundingBox =
      (q.axisBounds q.derivative
        (q.derivative.start * (lit (-1) : Fl F) + q.derivative.end_) q.derivative.start 0).bind
        fun x => some fun _ => x := by
    intro q
    unfold QuadraticBezier.boundingBox
    dsimp only
    rw [iter_length_pn, forRange_succ (Nat.zero_le 0), forRange_empty le_rfl]
    show (_ >>= fun x => Arr.set? _ 0 x) = _
    congr 1
    funext x
    unfold Arr.set?
    rw [if_pos (show 0 < Point.dim (PointN (Fl F) 1) from Nat.zero_lt_one)]
    congr 1
    funext i
    rw [if_pos (Nat.lt_one_iff.1 (show i.val < 1 from i.isLt))]
  refine ⟨⟨pt (lit 0), pt (twoPow F (-55)), pt (lit 0)⟩, ?_, ?_, ?_, ?_⟩
  all_goals try
    intro _
    show OnGrid _ _ (lit 0 : Fl F)
    rw [lit_zero]
    exact ⟨trivial, isMultiple_zero _, by simp⟩
  · intro _
    show OnGrid _ _ (twoPow F (-55))
    rw [c (-55) (by norm_num)]
    refine ⟨trivial, ⟨1, by push_cast; rw [one_mul]; rfl⟩, ?_⟩
    show |(2 : ℝ) ^ (-55 : ℤ)| ≤ _
    rw [abs_of_pos (by positivity)]
    exact two_zpow_mono (by norm_num)
  · have e1 : (⟨pt (lit 0), pt (twoPow F (-55)), pt (lit 0)⟩ :
        QuadraticBezier (PointN (Fl F) 1)).mapPts (timesTwoPow 55)
          = ⟨pt (lit 0), pt (twoPow F 0), pt (lit 0)⟩ := by
      show (⟨pt (lit 0 * twoPow F 55), pt (twoPow F (-55) * twoPow F 55), pt (lit 0 * twoPow F 55)⟩ :
        QuadraticBezier (PointN (Fl F) 1)) = _
      rw [zup, mul (-55) 55 0 (by norm_num) (by norm_num) (by norm_num) (by norm_num)]
    rw [e1, box, box]
    have small : (⟨pt (lit 0), pt (twoPow F (-55)), pt (lit 0)⟩ :
        QuadraticBezier (PointN (Fl F) 1)).axisBounds
        (⟨pt (lit 0), pt (twoPow F (-55)), pt (lit 0)⟩ :
          QuadraticBezier (PointN (Fl F) 1)).derivative
        (pt ((twoPow F (-55) - lit 0) * lit 2 * lit (-1) + (lit 0 - twoPow F (-55)) * lit 2))
        (pt ((twoPow F (-55) - lit 0) * lit 2)) 0 = some (lit 0, lit 0) := by
      rw [(co (-55) (by norm_num)).2.2, (co (-55) (by norm_num)).1]
      have st : Scalar.lt (Scalar.abs (-twoPow F (-55 + 2))) (Scalar.epsilon : Fl F) = true := by
        rw [cn _ (by norm_num), epsilon_eq]
        show Scalar.lt (fin |-(2 : ℝ) ^ (-55 + 2 : ℤ)| _ : Fl F) _ = true
        rw [lt_fin, eps, abs_neg, abs_of_pos (by positivity)]
        exact zpow_lt_zpow_right₀ (by norm_num) (by norm_num)
      show (LineSegment.root _ (-twoPow F (-55 + 2)) (twoPow F (-55 + 1)) >>= fun r => _) = _
      unfold LineSegment.root
      rw [if_pos st]
      show (sortUnwrap [(lit 0 : Fl F), lit 0] >>= fun x => _) = _
      have so : sortUnwrap [(lit 0 : Fl F), lit 0] = some [lit 0, lit 0] := by
        simp [sortUnwrap, insertSorted, partialCmp, zlt, zeq]
      rw [so]
      rfl
    have half : -twoPow F 1 / -twoPow F 2 = twoPow F (-1) := by
      rw [cn 1 (by norm_num), cn 2 (by norm_num), c (-1) (by norm_num),
        fin_div (by norm_num), show -(2 : ℝ) ^ (1 : ℤ) / -2 ^ (2 : ℤ) = 2 ^ (-1 : ℤ) by norm_num,
        F.round_of_mem (ok (-1) (by norm_num))]
    have num : ∀ {x y z : ℝ} {hx hy} (hz : z ∈ F.grid ∧ |z| ≤ F.max), x + y = z →
        (fin x hx : Fl F) + fin y hy = fin z hz := by
      intro x y z hx hy hz h
      rw [fin_add, h, F.round_of_mem hz]
    have zadd : ∀ e, |e| ≤ 100 → (lit 0 : Fl F) + twoPow F e = twoPow F e := by
      intro e he
      rw [c e he, lit_zero]
      exact num _ (zero_add _)
    have at_half : (⟨pt (lit 0), pt (twoPow F 0), pt (lit 0)⟩ :
        QuadraticBezier (PointN (Fl F) 1)).evalCasteljau (twoPow F (-1)) = pt (twoPow F (-1)) := by
      have l1 : (lit 0 : Fl F) + (twoPow F 0 - lit 0) * twoPow F (-1) = twoPow F (-1) := by
        rw [subz 0 (by norm_num), mul 0 (-1) (-1) (by norm_num) (by norm_num) (by norm_num) rfl,
          zadd (-1) (by norm_num)]
      have l2 : twoPow F 0 + (lit 0 - twoPow F 0) * twoPow F (-1) = twoPow F (-1) := by
        rw [zsub 0 (by norm_num), nmul 0 (-1) (-1) (by norm_num) (by norm_num) (by norm_num) rfl,
          c 0 (by norm_num), cn (-1) (by norm_num), c (-1) (by norm_num)]
        exact num _ (by norm_num)
      have l3 : twoPow F (-1) + (twoPow F (-1) - twoPow F (-1)) * twoPow F (-1)
          = twoPow F (-1) := by
        rw [c (-1) (by norm_num), fin_sub, sub_self, F.round_of_mem F.zero_ok, fin_mul, zero_mul,
          F.round_of_mem F.zero_ok]
        exact num _ (add_zero _)
      show pt ((lit 0 + (twoPow F 0 - lit 0) * twoPow F (-1))
        + ((twoPow F 0 + (lit 0 - twoPow F 0) * twoPow F (-1))
          - (lit 0 + (twoPow F 0 - lit 0) * twoPow F (-1))) * twoPow F (-1)) = _
      rw [l1, l2, l3]
    have big : (⟨pt (lit 0), pt (twoPow F 0), pt (lit 0)⟩ :
        QuadraticBezier (PointN (Fl F) 1)).axisBounds
        (⟨pt (lit 0), pt (twoPow F 0), pt (lit 0)⟩ :
          QuadraticBezier (PointN (Fl F) 1)).derivative
        (pt ((twoPow F 0 - lit 0) * lit 2 * lit (-1) + (lit 0 - twoPow F 0) * lit 2))
        (pt ((twoPow F 0 - lit 0) * lit 2)) 0 = some (lit 0, twoPow F (-1)) := by
      rw [(co 0 (by norm_num)).2.2, (co 0 (by norm_num)).1]
      norm_num only
      have st : ¬ Scalar.lt (Scalar.abs (-twoPow F 2)) (Scalar.epsilon : Fl F) = true := by
        rw [cn 2 (by norm_num), epsilon_eq]
        show ¬ Scalar.lt (fin |-(2 : ℝ) ^ (2 : ℤ)| _ : Fl F) _ = true
        rw [lt_fin, eps, abs_neg, abs_of_pos (by positivity), not_lt]
        exact two_zpow_mono (by norm_num)
      have p1 : Scalar.lt (lit 0 : Fl F) (twoPow F (-1)) = true := by
        rw [c (-1) (by norm_num), lit_zero, lt_fin]
        positivity
      have p2 : Scalar.lt (twoPow F (-1)) (lit 1 : Fl F) = true := by
        rw [c (-1) (by norm_num), lit_one, lt_fin]
        norm_num
      have p3 : Scalar.lt (twoPow F (-1)) (lit 0 : Fl F) = false := by
        rw [Bool.eq_false_iff, ne_eq, c (-1) (by norm_num), lit_zero, lt_fin, not_lt]
        positivity
      have p4 : Scalar.eq (twoPow F (-1)) (lit 0 : Fl F) = false := by
        rw [Bool.eq_false_iff, ne_eq, c (-1) (by norm_num), lit_zero, eq_fin]
        norm_num
      show (LineSegment.root _ (-twoPow F 2) (twoPow F 1) >>= fun r => _) = _
      unfold LineSegment.root
      rw [if_neg st, half]
      show ((([twoPow F (-1)].filter fun root => Scalar.lt (lit 0) root &&
        Scalar.lt root (lit 1 : Fl F)).mapM fun t => Point.axis (QuadraticBezier.evalCasteljau
          (⟨pt (lit 0), pt (twoPow F 0), pt (lit 0)⟩ : QuadraticBezier (PointN (Fl F) 1)) t) 0)
            >>= fun x => _) = _
      have fl : ([twoPow F (-1)].filter fun root => Scalar.lt (lit 0) root &&
        Scalar.lt root (lit 1 : Fl F)) = [twoPow F (-1)] := by
        simp [p1, p2]
      rw [fl, List.mapM_cons, at_half]
      show (sortUnwrap [twoPow F (-1), (lit 0 : Fl F), lit 0] >>= fun x => _) = _
      have so : sortUnwrap [twoPow F (-1), (lit 0 : Fl F), lit 0]
          = some [lit 0, lit 0, twoPow F (-1)] := by
        simp [sortUnwrap, insertSorted, partialCmp, zlt, zeq, p1, p3, p4]
      rw [so]
      rfl
    intro h
    have h' : (some (fun _ => (lit 0, twoPow F (-1))) : Option (Arr (Fl F × Fl F) 1)) =
        (some (fun _ => (lit 0, lit 0)) : Option (Arr (Fl F × Fl F) 1)).map (boxTimesTwoPow 55) := by
      refine Eq.trans ?_ (h.trans ?_)
      · exact (congrArg (fun o => Option.bind o fun x => some fun _ => x) big).symm
      · exact congrArg (fun o => (Option.bind o fun x => some fun _ => x).map (boxTimesTwoPow 55))
          small
    have h2 : twoPow F (-1) = (lit 0 : Fl F) * twoPow F 55 :=
      congrArg Prod.snd (congrFun (Option.some.inj h') 0)
    rw [zup, c (-1) (by norm_num), lit_zero] at h2
    injection h2 with h2
    norm_num at h2

end

end Stroke
