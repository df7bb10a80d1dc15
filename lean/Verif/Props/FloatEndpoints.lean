import Verif.Lemmas.Float
import Verif.Lemmas.Casteljau

/-!
# Floating point: equality with NaN, end points of curves (C02, C60, C61)
-/

namespace Stroke

variable {F : FloatFormat} {n : ℕ}

open Fl

/-- All components of the point are finite. -/
def FinitePoint (p : PointN (Fl F) n) : Prop := ∀ i, (p.coords i).IsFinite

theorem pointN_ext {S : Type} {p q : PointN S n} (h : ∀ i, p.coords i = q.coords i) : p = q := by
  cases p; cases q
  congr 1
  funext i
  exact h i

section simps
variable {S : Type} [Scalar S]
@[simp] theorem coords_add (p q : PointN S n) (i : Fin n) :
    (p + q).coords i = p.coords i + q.coords i := rfl
@[simp] theorem coords_sub (p q : PointN S n) (i : Fin n) :
    (p - q).coords i = p.coords i - q.coords i := rfl
@[simp] theorem coords_mul (p : PointN S n) (s : S) (i : Fin n) :
    (p * s).coords i = p.coords i * s := rfl
end simps

/-! ### Equality (C02) -/

/-- **C02** (floats): `==` holds exactly if the points have the same components and none of them
is NaN. -/
theorem C02_float_eq (p q : PointN (Fl F) n) :
    Point.eq p q = true ↔ p = q ∧ ∀ i, p.coords i ≠ nan := by
  show PointN.eq p q = true ↔ _
  unfold PointN.eq
  simp only [List.all_eq_true, List.mem_finRange, forall_const, eq_iff]
  constructor
  · intro h
    exact ⟨pointN_ext fun i => (h i).1, fun i => (h i).2⟩
  · rintro ⟨rfl, h⟩ i
    exact ⟨rfl, h i⟩

/-- **C02** (floats): a point with a NaN component differs from every point, itself included;
`==` is symmetric and transitive. -/
theorem C02_float (p q r : PointN (Fl F) n) :
    ((∃ i, p.coords i = nan) → Point.eq p q = false ∧ Point.eq q p = false) ∧
    (Point.eq p q = true → Point.eq q p = true) ∧
    (Point.eq p q = true → Point.eq q r = true → Point.eq p r = true) ∧
    ((∀ i, p.coords i ≠ nan) → Point.eq p p = true) := by
  refine ⟨?_, ?_, ?_, ?_⟩
  · rintro ⟨i, hi⟩
    rw [← Bool.not_eq_true, ← Bool.not_eq_true, C02_float_eq, C02_float_eq]
    refine ⟨fun h => h.2 i hi, fun h => ?_⟩
    have := h.2 i
    rw [h.1] at this
    exact this hi
  · simp only [C02_float_eq]
    rintro ⟨rfl, h⟩
    exact ⟨rfl, h⟩
  · simp only [C02_float_eq]
    rintro ⟨rfl, h⟩ ⟨rfl, _⟩
    exact ⟨rfl, h⟩
  · rw [C02_float_eq]
    exact fun h => ⟨rfl, h⟩

/-! ### End points (C60) -/

/-- **C60** for `CubicBezier`: whatever the rounding, `eval(0)` and `eval(1)` are exactly the
first and last control point. -/
theorem C60_cubic (c : CubicBezier (PointN (Fl F) n)) (h0 : FinitePoint c.start)
    (h1 : FinitePoint c.ctrl1) (h2 : FinitePoint c.ctrl2) (h3 : FinitePoint c.end_) :
    c.eval (lit 0 : Fl F) = c.start ∧ c.eval (lit 1 : Fl F) = c.end_ := by
  have z := isFinite_zero (F := F)
  have o := isFinite_one (F := F)
  have t3 : (lit 3 : Fl F).IsFinite := by
    have := isFinite_lit (F := F) 3 (by norm_num)
    exact_mod_cast this
  constructor <;> apply pointN_ext <;> intro i <;>
    simp only [CubicBezier.eval, coords_add, coords_mul, one_sub_zero, one_sub_one, mul_litOne o,
      mul_litZero o, mul_litZero z, mul_litOne z, litZero_mul t3, mul_litOne (h0 i),
      mul_litZero (h0 i), mul_litZero (h1 i), mul_litZero (h2 i), mul_litZero (h3 i),
      mul_litOne (h3 i), add_litZero (h0 i), add_litZero z, litZero_add (h3 i)]

/-- **C60** for `QuadraticBezier`: doubling the middle control point must not overflow. -/
theorem C60_quadratic (q : QuadraticBezier (PointN (Fl F) n)) (h0 : FinitePoint q.start)
    (h1 : FinitePoint (q.ctrl * (lit 2 : Fl F))) (h2 : FinitePoint q.end_) :
    q.eval (lit 0 : Fl F) = q.start ∧ q.eval (lit 1 : Fl F) = q.end_ := by
  have z := isFinite_zero (F := F)
  have o := isFinite_one (F := F)
  have h1' : ∀ i, (q.ctrl.coords i * (lit 2 : Fl F)).IsFinite := h1
  constructor <;> apply pointN_ext <;> intro i <;>
    simp only [QuadraticBezier.eval, coords_add, coords_mul, one_sub_zero, one_sub_one,
      mul_litOne o, mul_litZero z, mul_litOne z, mul_litOne (h0 i),
      mul_litZero (h0 i), mul_litZero (h1' i), mul_litOne (h1' i), mul_litZero (h2 i),
      mul_litOne (h2 i), add_litZero (h0 i), add_litZero z, litZero_add (h2 i)]

/-- Without the restriction on overflow **C60** fails for `QuadraticBezier`: if twice a
coordinate of the middle control point is infinite, `eval(0)` and `eval(1)` are NaN there. -/
theorem C60_overflow (q : QuadraticBezier (PointN (Fl F) n)) (i : Fin n) {s : Bool}
    (h1 : q.ctrl.coords i * (lit 2 : Fl F) = inf s) :
    (q.eval (lit 0 : Fl F)).coords i = nan ∧ (q.eval (lit 1 : Fl F)).coords i = nan := by
  have z := isFinite_zero (F := F)
  have o := isFinite_one (F := F)
  have e1 : (inf s : Fl F) * lit 0 = nan := by
    rw [lit_zero]; exact if_pos rfl
  have e2 : (inf s : Fl F) * lit 1 = inf s := by
    rw [lit_one]
    show (open Classical in if (1 : ℝ) = 0 then nan else inf (s != decide ((1 : ℝ) < 0))) = _
    rw [if_neg one_ne_zero]
    simp [not_lt.2 (zero_le_one (α := ℝ))]
  have e3 : ∀ x : Fl F, nan * x = nan := fun x => rfl
  have e4 : ∀ x : Fl F, x + nan = nan := fun x => by cases x <;> rfl
  have e5 : ∀ x : Fl F, nan + x = nan := fun x => rfl
  constructor <;>
    simp only [QuadraticBezier.eval, coords_add, coords_mul, one_sub_zero, one_sub_one, h1,
      e1, e2, e3, e4, e5]

/-- The overflow of `C60_overflow` does happen in binary64: the middle control point may have the
largest finite value as a coordinate. -/
theorem C60_overflow_binary64 (cosI acosI : ℝ → ℝ) (powI : ℝ → ℝ → ℝ) :
    ∃ q : QuadraticBezier (PointN (Fl (binary64 cosI acosI powI)) 1),
      FinitePoint q.start ∧ FinitePoint q.ctrl ∧ FinitePoint q.end_ ∧
      (q.eval (lit 0 : Fl (binary64 cosI acosI powI))).coords 0 = nan := by
  set F := binary64 cosI acosI powI with hF
  refine ⟨⟨PointN.new fun _ => lit 0,
    PointN.new fun _ => fin F.max ⟨F.max_mem, (abs_of_pos F.max_pos).le⟩,
    PointN.new fun _ => lit 0⟩, fun _ => isFinite_zero, fun _ => trivial, fun _ => isFinite_zero, ?_⟩
  refine (C60_overflow _ 0 (s := false) ?_).1
  have e : (lit 2 : Fl F) = fin ((2 : ℤ) : ℝ) (F.int_ok 2 (by norm_num)) := by
    rw [← lit_int 2 (by norm_num)]; norm_cast
  show fin F.max _ * (lit 2 : Fl F) = _
  rw [e, fin_mul]
  have hmem : F.max * ((2 : ℤ) : ℝ) ∈ F.grid := by
    show (((2 : ℝ) ^ 53 - 1) * 2 ^ 971) * ((2 : ℤ) : ℝ) ∈ ieeeGrid 53 (-1074)
    refine ⟨2 ^ 53 - 1, 972, by norm_num, by norm_num, ?_⟩
    have hz : (2 : ℝ) ^ (972 : ℤ) = 2 ^ 971 * 2 := by
      rw [show (972 : ℤ) = ((971 + 1 : ℕ) : ℤ) by norm_num, zpow_natCast]
      exact pow_succ _ _
    rw [hz]
    generalize (2 : ℝ) ^ 971 = z
    push_cast
    ring
  unfold FloatFormat.round
  have := F.max_pos
  rw [dif_neg]
  · push_cast
    simp only [inf.injEq, decide_eq_false_iff_not, not_lt]
    linarith
  · rw [F.rnd_of_mem _ hmem, abs_of_pos (by push_cast; linarith)]
    push_cast
    linarith

/-- **C60** for `Bezier`: with any number of control points (at least one), `eval(0)` is exactly
the first and `eval(1)` exactly the last, whatever the rounding. -/
theorem C60_bezier {N : ℕ} (b : Bezier (PointN (Fl F) n) N) (hN : 1 ≤ N)
    (h : ∀ k, FinitePoint (b.control_points k)) :
    b.eval (lit 0 : Fl F) = some (b.control_points ⟨0, by omega⟩) ∧
    b.eval (lit 1 : Fl F) = some (b.control_points ⟨N - 1, by omega⟩) := by
  have hfin : ∀ k i, ((extend b.control_points k).coords i).IsFinite := by
    intro k i
    unfold extend
    split_ifs with hk
    · exact h _ i
    · exact isFinite_zero
  have k0 : ∀ m j, cas (extend b.control_points) (lit 0 : Fl F) m j
      = extend b.control_points j := by
    intro m
    induction m with
    | zero => intro j; rfl
    | succ m ih =>
      intro j
      apply pointN_ext
      intro i
      rw [cas, ih, ih]
      simp only [coords_add, coords_mul, one_sub_zero]
      rw [mul_litOne (hfin _ _), mul_litZero (hfin _ _), add_litZero (hfin _ _)]
  have k1 : ∀ m j, cas (extend b.control_points) (lit 1 : Fl F) m j
      = extend b.control_points (j + m) := by
    intro m
    induction m with
    | zero => intro j; rfl
    | succ m ih =>
      intro j
      apply pointN_ext
      intro i
      rw [cas, ih, ih]
      simp only [coords_add, coords_mul, one_sub_one]
      rw [mul_litOne (hfin _ _), mul_litZero (hfin _ _), litZero_add (hfin _ _),
        show j + 1 + m = j + (m + 1) by ring]
  rw [bezier_eval_cas b hN, bezier_eval_cas b hN, k0, k1, extend_lt _ (by omega),
    extend_lt _ (by omega)]
  simp

/-- The hypotheses of `C60_bezier` hold for a curve of degree 3 in the plane. -/
example : ∃ b : Bezier (PointN (Fl F) 2) 4, (∀ k, FinitePoint (b.control_points k)) ∧
    b.control_points 0 ≠ b.control_points 3 := by
  refine ⟨⟨fun k => if k = 0 then ⟨fun _ => lit 0⟩ else ⟨fun _ => lit 1⟩⟩, ?_, ?_⟩
  · intro k
    dsimp only
    split_ifs
    · exact fun _ => isFinite_zero
    · exact fun _ => isFinite_one
  · intro h
    have h1 : (lit 0 : Fl F) = lit 1 := congrArg (fun p : PointN (Fl F) 2 => p.coords 0) h
    rw [lit_zero, lit_one] at h1
    simp at h1

/-! ### The other evaluation scheme (C61) -/

/-- The difference `q - p` is finite and exact, in every component. -/
def ExactDiff (p q : PointN (Fl F) n) : Prop :=
  ∀ i, ∃ a ha b hb, p.coords i = fin a ha ∧ q.coords i = fin b hb ∧
    b - a ∈ F.grid ∧ |b - a| ≤ F.max

theorem ExactDiff.lerp_one {p q : PointN (Fl F) n} (h : ExactDiff p q) :
    p + (q - p) * (lit 1 : Fl F) = q := by
  apply pointN_ext
  intro i
  obtain ⟨a, ha, b, hb, e1, e2, h1, h2⟩ := h i
  simp only [coords_add, coords_sub, coords_mul, e1, e2]
  rw [fin_sub, F.round_of_mem ⟨h1, h2⟩, mul_litOne isFinite_fin, fin_add,
    show a + (b - a) = b by ring, F.round_of_mem hb]

theorem lerp_zero {p q : PointN (Fl F) n} (hp : FinitePoint p) (h : FinitePoint (q - p)) :
    p + (q - p) * (lit 0 : Fl F) = p := by
  apply pointN_ext
  intro i
  rw [coords_add, coords_mul, mul_litZero (h i), add_litZero (hp i)]

/-- **C61** for the start point: `LineSegment::eval(0)` and `eval_casteljau(0)` are exactly the
first control point, if no difference of neighbouring control points overflows. -/
theorem C61_start (s c e c2 : PointN (Fl F) n) (hs : FinitePoint s) (hc : FinitePoint c)
    (hc2 : FinitePoint c2) (h1 : FinitePoint (c - s)) (h2 : FinitePoint (c2 - c))
    (h3 : FinitePoint (e - c2)) :
    (⟨s, c⟩ : LineSegment (PointN (Fl F) n)).eval (lit 0 : Fl F) = s ∧
    (⟨s, c, c2⟩ : QuadraticBezier (PointN (Fl F) n)).evalCasteljau (lit 0 : Fl F) = s ∧
    (⟨s, c, c2, e⟩ : CubicBezier (PointN (Fl F) n)).evalCasteljau (lit 0 : Fl F) = s := by
  refine ⟨?_, ?_, ?_⟩
  · exact lerp_zero hs h1
  · simp only [QuadraticBezier.evalCasteljau]
    rw [lerp_zero hs h1, lerp_zero hc h2, lerp_zero hs h1]
  · simp only [CubicBezier.evalCasteljau]
    rw [lerp_zero hs h1, lerp_zero hc h2, lerp_zero hc2 h3, lerp_zero hs h1, lerp_zero hc h2,
      lerp_zero hs h1]

/-- **C61** for the end point, if the differences of neighbouring control points are exact.
Missing for the full claim: arbitrary control points, for which it is false (`C61_false`). -/
theorem C61_partial (s c c2 e : PointN (Fl F) n) (h1 : ExactDiff s c) (h2 : ExactDiff c c2)
    (h3 : ExactDiff c2 e) :
    (⟨s, c⟩ : LineSegment (PointN (Fl F) n)).eval (lit 1 : Fl F) = c ∧
    (⟨s, c, c2⟩ : QuadraticBezier (PointN (Fl F) n)).evalCasteljau (lit 1 : Fl F) = c2 ∧
    (⟨s, c, c2, e⟩ : CubicBezier (PointN (Fl F) n)).evalCasteljau (lit 1 : Fl F) = e := by
  refine ⟨?_, ?_, ?_⟩
  · exact h1.lerp_one
  · simp only [QuadraticBezier.evalCasteljau]
    rw [h1.lerp_one, h2.lerp_one, h2.lerp_one]
  · simp only [CubicBezier.evalCasteljau]
    rw [h1.lerp_one, h2.lerp_one, h3.lerp_one, h2.lerp_one, h3.lerp_one, h3.lerp_one]

/-- The hypothesis of `C61_partial` holds for integer coordinates up to 512. -/
example (a b : ℤ) (ha : |a| ≤ 512) (hb : |b| ≤ 512) :
    ExactDiff (n := 2) (F := F) ⟨fun _ => lit (a : ℚ)⟩ ⟨fun _ => lit (b : ℚ)⟩ := by
  intro i
  have h := abs_sub b a
  refine ⟨a, F.int_ok a (by omega), b, F.int_ok b (by omega), lit_int a (by omega),
    lit_int b (by omega), ?_⟩
  have := F.int_ok (b - a) (by omega)
  push_cast at this
  exact this

/-- **C61** error bound: how far `LineSegment::eval(1)` can be from the end point. -/
theorem C61_error (a b : ℝ) (ha : a ∈ F.grid ∧ |a| ≤ F.max) (hb : b ∈ F.grid ∧ |b| ≤ F.max)
    {r : ℝ} {hr : r ∈ F.grid ∧ |r| ≤ F.max}
    (h : (⟨⟨fun _ => fin a ha⟩, ⟨fun _ => fin b hb⟩⟩ : LineSegment (PointN (Fl F) 1)).eval
      (lit 1 : Fl F) = ⟨fun _ => fin r hr⟩) :
    |r - b| ≤ (1 + F.u) * (F.u * |b - a| + F.eta) + F.u * |b| + F.eta := by
  have h0 : fin a ha + (fin b hb - fin a ha) * (lit 1 : Fl F) = fin r hr :=
    congrArg (fun p : PointN (Fl F) 1 => p.coords 0) h
  rw [fin_sub] at h0
  unfold FloatFormat.round at h0
  split_ifs at h0 with hc
  · rw [mul_litOne isFinite_fin, fin_add] at h0
    unfold FloatFormat.round at h0
    split_ifs at h0 with hc2
    simp only [fin.injEq] at h0
    have e1 := F.rnd_err (b - a)
    have e2 := F.rnd_err (a + F.rnd (b - a))
    rw [h0] at e2
    have hu := F.u_nonneg
    have e3 : |a + F.rnd (b - a)| ≤ |b| + (F.u * |b - a| + F.eta) := by
      calc |a + F.rnd (b - a)| = |b + (F.rnd (b - a) - (b - a))| := by congr 1; ring
        _ ≤ |b| + |F.rnd (b - a) - (b - a)| := abs_add_le _ _
        _ ≤ _ := by linarith
    calc |r - b| = |(r - (a + F.rnd (b - a))) + (F.rnd (b - a) - (b - a))| := by congr 1; ring
      _ ≤ |r - (a + F.rnd (b - a))| + |F.rnd (b - a) - (b - a)| := abs_add_le _ _
      _ ≤ F.u * (|b| + (F.u * |b - a| + F.eta)) + F.eta + (F.u * |b - a| + F.eta) := by
        have := mul_le_mul_of_nonneg_left e3 hu
        linarith
      _ = _ := by ring
  · exfalso
    rw [lit_one] at h0
    have : (inf (decide (b - a < 0)) : Fl F) * fin 1 F.one_ok
        = inf (decide (b - a < 0)) := by
      show (open Classical in if (1 : ℝ) = 0 then nan
        else inf (decide (b - a < 0) != decide ((1 : ℝ) < 0))) = _
      rw [if_neg one_ne_zero]
      simp [not_lt.2 (zero_le_one (α := ℝ))]
    rw [this] at h0
    cases h0

/-- binary64 rounds `2⁻⁶⁰ - 1` to `-1`. -/
theorem rnd_tiny : ieeeRnd 53 (-1074) ((2 : ℝ) ^ (-60 : ℤ) - 1) = -1 := by
  have hpos : (0 : ℝ) < 1 - 2 ^ (-60 : ℤ) := by norm_num
  have habs : |(2 : ℝ) ^ (-60 : ℤ) - 1| = 1 - 2 ^ (-60 : ℤ) := by
    rw [← abs_neg, neg_sub, abs_of_pos hpos]
  have hlog : Int.log 2 |(2 : ℝ) ^ (-60 : ℤ) - 1| = -1 := by
    rw [habs]
    apply le_antisymm
    · have := (Int.lt_zpow_iff_log_lt (b := 2) (x := 0) (by norm_num) hpos).1
        (by norm_num)
      omega
    · exact (Int.zpow_le_iff_le_log (b := 2) (by norm_num) hpos).1 (by norm_num)
  have hexp : ulpExp 53 (-1074) ((2 : ℝ) ^ (-60 : ℤ) - 1) = -53 := by
    unfold ulpExp
    rw [hlog]
    norm_num
  unfold ieeeRnd
  rw [hexp]
  have : roundEven (((2 : ℝ) ^ (-60 : ℤ) - 1) / 2 ^ (-53 : ℤ)) = -2 ^ 53 := by
    refine roundEven_unique (roundEven_spec _) (Or.inl ?_)
    push_cast
    rw [show ((2 : ℝ) ^ (-60 : ℤ) - 1) / 2 ^ (-53 : ℤ) - -9007199254740992 = 1 / 128 by norm_num]
    norm_num
  rw [this]
  norm_num

theorem tiny_ok (cosI acosI : ℝ → ℝ) (powI : ℝ → ℝ → ℝ) :
    (2 : ℝ) ^ (-60 : ℤ) ∈ (binary64 cosI acosI powI).grid ∧
      |(2 : ℝ) ^ (-60 : ℤ)| ≤ (binary64 cosI acosI powI).max := by
  refine ⟨⟨1, -60, by norm_num, by norm_num, by norm_num⟩, ?_⟩
  refine le_trans ?_ (FloatFormat.max_ge _)
  norm_num

/-- **C61** is false of the code: in binary64, with start 1 and end 2⁻⁶⁰, `LineSegment::eval(1)`
returns 0 and not the end point; so does `eval_casteljau(1)` of the quadratic and cubic curves
with these ends and all other control points at the start. -/
theorem C61_false (cosI acosI : ℝ → ℝ) (powI : ℝ → ℝ → ℝ) :
    let F := binary64 cosI acosI powI
    let s : PointN (Fl F) 1 := ⟨fun _ => lit 1⟩
    let e : PointN (Fl F) 1 := ⟨fun _ => fin _ (tiny_ok cosI acosI powI)⟩
    (⟨s, e⟩ : LineSegment (PointN (Fl F) 1)).eval (lit 1 : Fl F) = ⟨fun _ => lit 0⟩ ∧
    (⟨s, s, e⟩ : QuadraticBezier (PointN (Fl F) 1)).evalCasteljau (lit 1 : Fl F)
      = ⟨fun _ => lit 0⟩ ∧
    (⟨s, s, s, e⟩ : CubicBezier (PointN (Fl F) 1)).evalCasteljau (lit 1 : Fl F)
      = ⟨fun _ => lit 0⟩ := by
  intro F s e
  have key : s + (e - s) * (lit 1 : Fl F) = ⟨fun _ => lit 0⟩ := by
    apply pointN_ext
    intro i
    show lit 1 + (fin _ (tiny_ok cosI acosI powI) - lit 1) * (lit 1 : Fl F) = lit 0
    rw [show (lit 1 : Fl F) = fin 1 F.one_ok from lit_one, fin_sub]
    have h1 : F.rnd ((2 : ℝ) ^ (-60 : ℤ) - 1) = -1 := rnd_tiny
    have h2 : |F.rnd ((2 : ℝ) ^ (-60 : ℤ) - 1)| ≤ F.max := by
      rw [h1, abs_neg, abs_one]
      linarith [F.max_ge]
    rw [F.round_of_rnd_le h2, fin_mul, h1, mul_one, F.round_of_mem (by
      have := F.int_ok (-1) (by norm_num)
      push_cast at this
      exact this), fin_add, show (1 : ℝ) + -1 = 0 by norm_num, F.round_of_mem F.zero_ok, lit_zero]
  have ks : ExactDiff s s := by
    intro i
    refine ⟨1, F.one_ok, 1, F.one_ok, lit_one, lit_one, ?_⟩
    rw [sub_self]
    exact F.zero_ok
  have kd : ∀ t : PointN (Fl F) 1, t = ⟨fun _ => lit 0⟩ → s + (t - s) * (lit 1 : Fl F) = t := by
    rintro t rfl
    apply ExactDiff.lerp_one
    intro i
    refine ⟨1, F.one_ok, 0, F.zero_ok, lit_one, lit_zero, ?_⟩
    have := F.int_ok (-1) (by norm_num)
    push_cast at this
    rwa [zero_sub]
  refine ⟨key, ?_, ?_⟩
  · simp only [QuadraticBezier.evalCasteljau]
    rw [ks.lerp_one, key]
    exact kd _ rfl
  · simp only [CubicBezier.evalCasteljau]
    rw [ks.lerp_one, key, ks.lerp_one, kd _ rfl, kd _ rfl]

end Stroke
