import Verif.Props.FloatEndpoints
import Verif.Props.FloatBoxContains
import Verif.Lemmas.Casteljau

set_option linter.unusedSectionVars false

/-!
# Straight lines and constant curves in floating point (C97)
-/

namespace Stroke
namespace Fl

variable {F : FloatFormat}

/-! ### Order -/

/-- The values of `x` and `y` are in order, unless one of them is NaN. -/
def Ord (x y : Fl F) : Prop := ∀ a b : EReal, x.val? = some a → y.val? = some b → a ≤ b

theorem ord_iff {x y : Fl F} : Ord x y ↔ Scalar.lt y x = false := by
  show _ ↔ Fl.lt y x = false
  unfold Ord Fl.lt
  cases hx : x.val? with
  | none => cases hy : y.val? <;> simp
  | some a =>
    cases hy : y.val? with
    | none => simp
    | some b => simp

theorem ord_of_le {x y : Fl F} (h : Scalar.le x y = true) : Ord x y := by
  have h' : Fl.le x y = true := h
  unfold Fl.le at h'
  intro a b ha hb
  rw [ha, hb] at h'
  simpa using h'

theorem nan_ord (x : Fl F) : Ord nan x := fun a b ha _ => by simp [val?] at ha
theorem ord_nan (x : Fl F) : Ord x nan := fun a b _ hb => by simp [val?] at hb
theorem negInf_ord (x : Fl F) : Ord (inf true) x := fun a b ha _ => by
  simp only [val?, Option.some.injEq] at ha; subst ha; exact bot_le
theorem ord_posInf (x : Fl F) : Ord x (inf false) := fun a b _ hb => by
  simp only [val?, Option.some.injEq] at hb; subst hb; exact le_top
theorem ord_refl (x : Fl F) : Ord x x := fun a b ha hb => by
  rw [ha] at hb; cases hb; exact le_rfl

theorem ord_fin {a b : ℝ} {ha : a ∈ F.grid ∧ |a| ≤ F.max} {hb : b ∈ F.grid ∧ |b| ≤ F.max} :
    Ord (fin a ha : Fl F) (fin b hb) ↔ a ≤ b := by
  constructor
  · intro h
    exact EReal.coe_le_coe_iff.1 (h _ _ rfl rfl)
  · intro h x y hx hy
    simp only [val?, Option.some.injEq] at hx hy
    subst hx hy
    exact EReal.coe_le_coe_iff.2 h

theorem not_posInf_ord_fin {a : ℝ} {ha : a ∈ F.grid ∧ |a| ≤ F.max} :
    ¬ Ord (inf false : Fl F) (fin a ha) := fun h => by
  have := h _ _ rfl rfl
  exact absurd this (not_le.2 (EReal.coe_lt_top a))

theorem not_fin_ord_negInf {a : ℝ} {ha : a ∈ F.grid ∧ |a| ≤ F.max} :
    ¬ Ord (fin a ha : Fl F) (inf true) := fun h => by
  have := h _ _ rfl rfl
  exact absurd this (not_le.2 (EReal.bot_lt_coe a))

theorem not_posInf_ord_negInf : ¬ Ord (inf false : Fl F) (inf true) := fun h => by
  have := h _ _ rfl rfl
  exact absurd this (by simp)

/-- Rounding, overflow included, keeps the order. -/
theorem round_ord {x y : ℝ} (h : x ≤ y) : Ord (F.round x) (F.round y) := by
  have hr := F.rnd_mono h
  have m0 := F.max_pos
  unfold FloatFormat.round
  by_cases hx : |F.rnd x| ≤ F.max
  · by_cases hy : |F.rnd y| ≤ F.max
    · rw [dif_pos hx, dif_pos hy]
      exact ord_fin.2 hr
    · rw [dif_neg hy]
      have : ¬ y < 0 := fun h0 => hy (abs_le.2 ⟨by linarith [(abs_le.1 hx).1],
        by linarith [F.rnd_nonpos h0.le]⟩)
      rw [decide_eq_false this]
      exact ord_posInf _
  · rw [dif_neg hx]
    by_cases h0 : x < 0
    · rw [decide_eq_true h0]; exact negInf_ord _
    · have hy0 : ¬ y < 0 := by intro h'; exact h0 (lt_of_le_of_lt h h')
      have hy : ¬ |F.rnd y| ≤ F.max := by
        intro hy
        apply hx
        rw [abs_of_nonneg (F.rnd_nonneg (not_lt.1 h0))]
        exact hr.trans (abs_le.1 hy).2
      rw [decide_eq_false h0, dif_neg hy, decide_eq_false hy0]
      exact ord_refl _

theorem add_ord (s : Fl F) {x y : Fl F} (h : Ord x y) : Ord (s + x) (s + y) := by
  show Ord (add s x) (add s y)
  cases s with
  | nan => exact nan_ord _
  | inf b =>
    cases x with
    | nan => exact nan_ord _
    | inf bx =>
      cases y with
      | nan => exact ord_nan _
      | inf by' =>
        cases b <;> cases bx <;> cases by' <;>
          first
            | exact ord_refl _
            | exact nan_ord _
            | exact ord_nan _
      | fin c hc =>
        cases b <;> cases bx <;>
          first
            | exact ord_refl _
            | exact nan_ord _
    | fin a ha =>
      cases y with
      | nan => exact ord_nan _
      | inf by' =>
        cases b <;> cases by' <;>
          first
            | exact ord_refl _
            | exact ord_nan _
      | fin c hc => exact ord_refl _
  | fin r hr =>
    cases x with
    | nan => exact nan_ord _
    | inf bx =>
      cases y with
      | nan => exact ord_nan _
      | inf by' => exact h
      | fin c hc =>
        cases bx
        · exact absurd h not_posInf_ord_fin
        · exact negInf_ord _
    | fin a ha =>
      cases y with
      | nan => exact ord_nan _
      | inf by' =>
        cases by'
        · exact ord_posInf _
        · exact absurd h not_fin_ord_negInf
      | fin c hc =>
        exact round_ord (by linarith [ord_fin.1 h])

theorem fin_mul_inf {a : ℝ} {ha : a ∈ F.grid ∧ |a| ≤ F.max} (s : Bool) :
    (0 < a → mul (fin a ha : Fl F) (inf s) = inf s)
      ∧ (a < 0 → mul (fin a ha : Fl F) (inf s) = inf (!s))
      ∧ (a = 0 → mul (fin a ha : Fl F) (inf s) = nan) := by
  refine ⟨fun h => ?_, fun h => ?_, fun h => ?_⟩
  · simp only [mul]
    rw [if_neg h.ne', decide_eq_false (by linarith)]
    cases s <;> rfl
  · simp only [mul]
    rw [if_neg h.ne, decide_eq_true h]
    cases s <;> rfl
  · simp only [mul]
    rw [if_pos h]

theorem inf_mul_fin {a : ℝ} {ha : a ∈ F.grid ∧ |a| ≤ F.max} (s : Bool) :
    (0 < a → mul (inf s : Fl F) (fin a ha) = inf s)
      ∧ (a < 0 → mul (inf s : Fl F) (fin a ha) = inf (!s))
      ∧ (a = 0 → mul (inf s : Fl F) (fin a ha) = nan) := by
  refine ⟨fun h => ?_, fun h => ?_, fun h => ?_⟩
  · simp only [mul]
    rw [if_neg h.ne', decide_eq_false (by linarith)]
    cases s <;> rfl
  · simp only [mul]
    rw [if_neg h.ne, decide_eq_true h]
    cases s <;> rfl
  · simp only [mul]
    rw [if_pos h]

/-- Multiplication by a value that is not negative keeps the order. -/
theorem mul_ord {d x y : Fl F} (hd : Ord (lit 0) d) (h : Ord x y) : Ord (d * x) (d * y) := by
  show Ord (mul d x) (mul d y)
  rw [lit_zero] at hd
  cases d with
  | nan => exact nan_ord _
  | inf b =>
    cases b with
    | true => exact absurd hd not_fin_ord_negInf
    | false =>
      cases x with
      | nan => exact nan_ord _
      | inf bx =>
        cases y with
        | nan => exact ord_nan _
        | inf by' => cases bx <;> cases by' <;> exact h
        | fin c hc =>
          cases bx
          · exact absurd h not_posInf_ord_fin
          · exact negInf_ord _
      | fin a ha =>
        cases y with
        | nan => exact ord_nan _
        | inf by' =>
          cases by'
          · exact ord_posInf _
          · exact absurd h not_fin_ord_negInf
        | fin c hc =>
          have hac := ord_fin.1 h
          rcases lt_trichotomy a 0 with ha0 | ha0 | ha0
          · rw [(inf_mul_fin (F := F) false).2.1 ha0]; exact negInf_ord _
          · rw [(inf_mul_fin (F := F) false).2.2 ha0]; exact nan_ord _
          · rw [(inf_mul_fin (F := F) (a := c) false).1 (by linarith)]; exact ord_posInf _
  | fin r hr =>
    have r0 : 0 ≤ r := ord_fin.1 hd
    cases x with
    | nan => exact nan_ord _
    | inf bx =>
      rcases r0.eq_or_lt with r0 | r0
      · rw [(fin_mul_inf (F := F) bx).2.2 r0.symm]; exact nan_ord _
      rw [(fin_mul_inf (F := F) bx).1 r0]
      cases y with
      | nan => exact ord_nan _
      | inf by' => rw [(fin_mul_inf (F := F) by').1 r0]; exact h
      | fin c hc =>
        cases bx
        · exact absurd h not_posInf_ord_fin
        · exact negInf_ord _
    | fin a ha =>
      cases y with
      | nan => exact ord_nan _
      | inf by' =>
        rcases r0.eq_or_lt with r0 | r0
        · rw [(fin_mul_inf (F := F) by').2.2 r0.symm]; exact ord_nan _
        rw [(fin_mul_inf (F := F) by').1 r0]
        cases by'
        · exact ord_posInf _
        · exact absurd h not_fin_ord_negInf
      | fin c hc => exact round_ord (mul_le_mul_of_nonneg_left (ord_fin.1 h) r0)

/-- Multiplication by a value that is not positive reverses the order. -/
theorem mul_ord_rev {d x y : Fl F} (hd : Ord d (lit 0)) (h : Ord x y) : Ord (d * y) (d * x) := by
  show Ord (mul d y) (mul d x)
  rw [lit_zero] at hd
  cases d with
  | nan => exact nan_ord _
  | inf b =>
    cases b with
    | false => exact absurd hd not_posInf_ord_fin
    | true =>
      cases x with
      | nan => exact ord_nan _
      | inf bx =>
        cases y with
        | nan => exact nan_ord _
        | inf by' =>
          cases bx <;> cases by'
          · exact ord_refl _
          · exact absurd h not_posInf_ord_negInf
          · exact negInf_ord _
          · exact ord_refl _
        | fin c hc =>
          cases bx
          · exact absurd h not_posInf_ord_fin
          · exact ord_posInf _
      | fin a ha =>
        cases y with
        | nan => exact nan_ord _
        | inf by' =>
          cases by'
          · exact negInf_ord _
          · exact absurd h not_fin_ord_negInf
        | fin c hc =>
          have hac := ord_fin.1 h
          rcases lt_trichotomy a 0 with ha0 | ha0 | ha0
          · rw [(inf_mul_fin (F := F) (a := a) true).2.1 ha0]; exact ord_posInf _
          · rw [(inf_mul_fin (F := F) (a := a) true).2.2 ha0]; exact ord_nan _
          · rw [(inf_mul_fin (F := F) (a := c) true).1 (by linarith)]; exact negInf_ord _
  | fin r hr =>
    have r0 : r ≤ 0 := ord_fin.1 hd
    cases x with
    | nan => exact ord_nan _
    | inf bx =>
      rcases r0.eq_or_lt with r0 | r0
      · rw [(fin_mul_inf (F := F) bx).2.2 r0]; exact ord_nan _
      rw [(fin_mul_inf (F := F) bx).2.1 r0]
      cases y with
      | nan => exact nan_ord _
      | inf by' =>
        rw [(fin_mul_inf (F := F) by').2.1 r0]
        cases bx <;> cases by'
        · exact ord_refl _
        · exact absurd h not_posInf_ord_negInf
        · exact negInf_ord _
        · exact ord_refl _
      | fin c hc =>
        cases bx
        · exact absurd h not_posInf_ord_fin
        · exact ord_posInf _
    | fin a ha =>
      cases y with
      | nan => exact nan_ord _
      | inf by' =>
        rcases r0.eq_or_lt with r0 | r0
        · rw [(fin_mul_inf (F := F) by').2.2 r0]; exact nan_ord _
        rw [(fin_mul_inf (F := F) by').2.1 r0]
        cases by'
        · exact negInf_ord _
        · exact absurd h not_fin_ord_negInf
      | fin c hc => exact round_ord (mul_le_mul_of_nonpos_left (ord_fin.1 h) r0)

theorem neg_ord {x y : Fl F} (h : Ord x y) : Ord (-y) (-x) := by
  show Ord (neg y) (neg x)
  cases x with
  | nan => exact ord_nan _
  | inf bx =>
    cases y with
    | nan => exact nan_ord _
    | inf by' =>
      cases bx <;> cases by'
      · exact ord_refl _
      · exact absurd h not_posInf_ord_negInf
      · exact negInf_ord _
      · exact ord_refl _
    | fin c hc =>
      cases bx
      · exact absurd h not_posInf_ord_fin
      · exact ord_posInf _
  | fin a ha =>
    cases y with
    | nan => exact nan_ord _
    | inf by' =>
      cases by'
      · exact negInf_ord _
      · exact absurd h not_fin_ord_negInf
    | fin c hc =>
      simp only [neg]
      exact ord_fin.2 (by linarith [ord_fin.1 h])

/-- `x - x` is 0 or NaN. -/
theorem sub_self_cases (x : Fl F) : x - x = lit 0 ∨ x - x = nan := by
  cases x with
  | nan => exact Or.inr rfl
  | inf b => cases b <;> exact Or.inr rfl
  | fin a ha =>
    left
    rw [fin_sub, sub_self, F.round_of_mem F.zero_ok, lit_zero]

theorem sub_sign {s e : Fl F} (h : Ord s e) : Ord (lit 0) (e - s) ∧ Ord (s - e) (lit 0) := by
  constructor
  · rcases sub_self_cases e with h' | h'
    · rw [← h']
      show Ord (e + -e) (e + -s)
      exact add_ord e (neg_ord h)
    · cases e with
      | nan => exact ord_nan _
      | inf be =>
        cases s with
        | nan => cases be <;> exact ord_nan _
        | inf bs =>
          cases be <;> cases bs
          · exact ord_nan _
          · exact ord_posInf _
          · exact absurd h not_posInf_ord_negInf
          · exact ord_nan _
        | fin a ha =>
          cases be
          · exact ord_posInf _
          · exact absurd h not_fin_ord_negInf
      | fin a ha =>
        rw [fin_sub, sub_self, F.round_of_mem F.zero_ok] at h'
        cases h'
  · rcases sub_self_cases s with h' | h'
    · rw [← h']
      show Ord (s + -e) (s + -s)
      exact add_ord s (neg_ord h)
    · cases s with
      | nan => exact nan_ord _
      | inf bs =>
        cases e with
        | nan => cases bs <;> exact nan_ord _
        | inf be =>
          cases be <;> cases bs
          · exact nan_ord _
          · exact negInf_ord _
          · exact absurd h not_posInf_ord_negInf
          · exact nan_ord _
        | fin a ha =>
          cases bs
          · exact absurd h not_posInf_ord_fin
          · exact negInf_ord _
      | fin a ha =>
        rw [fin_sub, sub_self, F.round_of_mem F.zero_ok] at h'
        cases h'

end Fl

open Fl

variable {F : FloatFormat} {n : ℕ}

/-! ### Line segments -/

/-- C97: along a line segment every computed coordinate moves in one direction only.  No
assumption is made about the values: rounding, overflow, infinite and NaN coordinates are
included (`<` is false for NaN). -/
theorem C97_line_monotone (l : LineSegment (PointN (Fl F) n)) (i : Fin n) {t t' : Fl F}
    (ht : Scalar.le t t' = true) :
    (Scalar.le (l.start.coords i) (l.end_.coords i) = true →
        Scalar.lt ((l.eval t').coords i) ((l.eval t).coords i) = false)
      ∧ (Scalar.le (l.end_.coords i) (l.start.coords i) = true →
        Scalar.lt ((l.eval t).coords i) ((l.eval t').coords i) = false) := by
  constructor
  · intro h
    rw [← ord_iff]
    show Ord (l.start.coords i + (l.end_.coords i - l.start.coords i) * t)
      (l.start.coords i + (l.end_.coords i - l.start.coords i) * t')
    exact add_ord _ (mul_ord (sub_sign (ord_of_le h)).1 (ord_of_le ht))
  · intro h
    rw [← ord_iff]
    show Ord (l.start.coords i + (l.end_.coords i - l.start.coords i) * t')
      (l.start.coords i + (l.end_.coords i - l.start.coords i) * t)
    exact add_ord _ (mul_ord_rev (sub_sign (ord_of_le h)).2 (ord_of_le ht))

theorem add_litZero_any (x : Fl F) : x + lit 0 = x := by
  cases x with
  | nan => rfl
  | inf b =>
    rw [lit_zero]
    rfl
  | fin a ha => exact add_litZero (isFinite_iff.2 ⟨a, ha, rfl⟩)

theorem mul_sign {d t : Fl F} (ht : Ord (lit 0) t) :
    (Ord (lit 0) d → Ord (lit 0) (d * t)) ∧ (Ord d (lit 0) → Ord (d * t) (lit 0)) := by
  cases d with
  | nan => exact ⟨fun _ => ord_nan _, fun _ => nan_ord _⟩
  | fin a ha =>
    have e : (fin a ha : Fl F) * lit 0 = lit 0 := mul_litZero (isFinite_iff.2 ⟨a, ha, rfl⟩)
    constructor
    · intro h
      have := mul_ord h ht
      rwa [e] at this
    · intro h
      have := mul_ord_rev h ht
      rwa [e] at this
  | inf b =>
    cases b
    · constructor
      · intro _
        cases t with
        | nan => exact ord_nan _
        | inf b' =>
          cases b'
          · exact ord_posInf _
          · rw [lit_zero] at ht
            exact absurd ht not_fin_ord_negInf
        | fin c hc =>
          rw [lit_zero] at ht
          have c0 := ord_fin.1 ht
          show Ord _ (open Classical in if c = 0 then (nan : Fl F) else inf (false != decide (c < 0)))
          split
          · exact ord_nan _
          · rw [decide_eq_false (not_lt.2 c0)]
            exact ord_posInf _
      · intro h
        rw [lit_zero] at h
        exact absurd h not_posInf_ord_fin
    · constructor
      · intro h
        rw [lit_zero] at h
        exact absurd h not_fin_ord_negInf
      · intro _
        cases t with
        | nan => exact nan_ord _
        | inf b' =>
          cases b'
          · exact negInf_ord _
          · rw [lit_zero] at ht
            exact absurd ht not_fin_ord_negInf
        | fin c hc =>
          rw [lit_zero] at ht
          have c0 := ord_fin.1 ht
          show Ord (open Classical in if c = 0 then (nan : Fl F) else inf (true != decide (c < 0))) _
          split
          · exact nan_ord _
          · rw [decide_eq_false (not_lt.2 c0)]
            exact negInf_ord _

/-- C97: for parameters that are not negative no coordinate is on the wrong side of the start
point; for parameters up to 1 none is beyond the computed point at 1.  Nothing is assumed about
the coordinates: they may be infinite, and the differences may overflow. -/
theorem C97_line_between (l : LineSegment (PointN (Fl F) n)) (i : Fin n) {t : Fl F}
    (ht : Scalar.le (lit 0) t = true) (ht' : Scalar.le t (lit 1) = true) :
    (Scalar.le (l.start.coords i) (l.end_.coords i) = true →
      Scalar.lt ((l.eval t).coords i) (l.start.coords i) = false
        ∧ Scalar.lt ((l.eval (lit 1 : Fl F)).coords i) ((l.eval t).coords i) = false)
    ∧ (Scalar.le (l.end_.coords i) (l.start.coords i) = true →
      Scalar.lt (l.start.coords i) ((l.eval t).coords i) = false
        ∧ Scalar.lt ((l.eval t).coords i) ((l.eval (lit 1 : Fl F)).coords i) = false) := by
  refine ⟨fun h => ⟨?_, (C97_line_monotone l i ht').1 h⟩,
    fun h => ⟨?_, (C97_line_monotone l i ht').2 h⟩⟩
  · rw [← ord_iff]
    have := add_ord (l.start.coords i) ((mul_sign (ord_of_le ht)).1 (sub_sign (ord_of_le h)).1)
    rwa [add_litZero_any] at this
  · rw [← ord_iff]
    have := add_ord (l.start.coords i) ((mul_sign (ord_of_le ht)).2 (sub_sign (ord_of_le h)).2)
    rwa [add_litZero_any] at this

/-! ### Constant curves -/

theorem lerp_const {p : PointN (Fl F) n} (hp : ∀ i, (p.coords i).IsFinite) {t : Fl F}
    (ht : t.IsFinite) : p + (p - p) * t = p := by
  apply pointN_ext
  intro i
  show p.coords i + (p.coords i - p.coords i) * t = p.coords i
  obtain ⟨a, ha, ea⟩ := isFinite_iff.1 (hp i)
  have e : p.coords i - p.coords i = lit 0 := by
    rw [ea, fin_sub, sub_self, F.round_of_mem F.zero_ok, lit_zero]
  rw [e, litZero_mul ht, add_litZero (hp i)]

/-- C97: a curve whose control points coincide evaluates to exactly that point, for
`LineSegment::eval` and the two `eval_casteljau`, in every format and for every finite parameter
(also outside [0, 1]); and so do the pieces `split` returns. -/
theorem C97_constant {p : PointN (Fl F) n} (hp : ∀ i, (p.coords i).IsFinite) {t : Fl F}
    (ht : t.IsFinite) :
    (⟨p, p⟩ : LineSegment (PointN (Fl F) n)).eval t = p
      ∧ (⟨p, p, p⟩ : QuadraticBezier (PointN (Fl F) n)).evalCasteljau t = p
      ∧ (⟨p, p, p, p⟩ : CubicBezier (PointN (Fl F) n)).evalCasteljau t = p
      ∧ (⟨p, p, p⟩ : QuadraticBezier (PointN (Fl F) n)).split t = (⟨p, p, p⟩, ⟨p, p, p⟩)
      ∧ (⟨p, p, p, p⟩ : CubicBezier (PointN (Fl F) n)).split t
        = (⟨p, p, p, p⟩, ⟨p, p, p, p⟩) := by
  simp only [LineSegment.eval, QuadraticBezier.evalCasteljau, CubicBezier.evalCasteljau,
    QuadraticBezier.split, CubicBezier.split, lerp_const hp ht, and_self]

/-! ### What does not hold: `f64` examples -/

section
variable (cosI acosI : ℝ → ℝ) (powI : ℝ → ℝ → ℝ)

/-- Rounding to binary64 of a number between `2 ^ k` and `2 ^ (k + 1)`. -/
theorem round_binade {x y : ℝ} (k m : ℤ) (hk : -1022 ≤ k) (h1 : (2 : ℝ) ^ k ≤ x)
    (h2 : x < (2 : ℝ) ^ (k + 1))
    (hm : |x / 2 ^ (k - 52) - m| < 1 / 2 ∨ (|x / 2 ^ (k - 52) - m| = 1 / 2 ∧ Even m))
    (hy : y = m * 2 ^ (k - 52))
    (ok : y ∈ (binary64 cosI acosI powI).grid ∧ |y| ≤ (binary64 cosI acosI powI).max) :
    (binary64 cosI acosI powI).round x = fin y ok := by
  have x0 : 0 < x := lt_of_lt_of_le (by positivity) h1
  have hl : Int.log 2 |x| = k := by
    rw [abs_of_pos x0]
    apply le_antisymm
    · have : Int.log 2 x < k + 1 := by
        rw [← Int.lt_zpow_iff_log_lt (by norm_num) x0]
        exact_mod_cast h2
      omega
    · rw [← Int.zpow_le_iff_le_log (by norm_num) x0]
      exact_mod_cast h1
  have hu : ulpExp 53 (-1074) x = k - 52 := by
    unfold ulpExp
    rw [hl]
    push_cast
    rw [max_eq_left (by omega)]
  have e : (binary64 cosI acosI powI).rnd x = y := by
    show ieeeRnd 53 (-1074) x = y
    unfold ieeeRnd
    rw [hu, roundEven_unique (roundEven_spec _) hm, hy]
  rw [FloatFormat.round_of_rnd_le _ (by rw [e]; exact ok.2)]
  exact fin_congr e

/-- C97: with coinciding control points 2 - 2⁻⁵², the generic `Bezier::eval` of a curve with two
control points returns 2 - 2⁻⁵¹ at t = 3/8, and `QuadraticBezier::eval` at t = 1/4. -/
theorem C97_constant_false :
    let F := binary64 cosI acosI powI
    ∃ (p q : ℝ) (hp : p ∈ F.grid ∧ |p| ≤ F.max) (hq : q ∈ F.grid ∧ |q| ≤ F.max), q < p
      ∧ (∃ t : Fl F, (⟨fun _ => ⟨fun _ => fin p hp⟩⟩ : Bezier (PointN (Fl F) 1) 2).eval t
          = some ⟨fun _ => fin q hq⟩)
      ∧ (∃ t : Fl F, (⟨⟨fun _ => fin p hp⟩, ⟨fun _ => fin p hp⟩, ⟨fun _ => fin p hp⟩⟩ :
          QuadraticBezier (PointN (Fl F) 1)).eval t = ⟨fun _ => fin q hq⟩) := by
  intro F
  have ok := dyadic_ok cosI acosI powI
  have hp := ok (2 ^ 53 - 1) (-52) (by norm_num) (by norm_num)
    (x := 2 - 2 ^ (-52 : ℤ)) (by norm_num) (by norm_num [abs_le])
  have hq := ok (2 ^ 53 - 2) (-52) (by norm_num) (by norm_num)
    (x := 2 - 2 ^ (-51 : ℤ)) (by norm_num) (by norm_num [abs_le])
  refine ⟨_, _, hp, hq, by norm_num, ?_, ?_⟩
  · have ht := ok 3 (-3) (by norm_num) (by norm_num) (x := 3 / 8) (by norm_num)
      (by norm_num [abs_le])
    refine ⟨fin (3 / 8) ht, ?_⟩
    rw [bezier_eval_cas _ (by norm_num)]
    congr 1
    apply pointN_ext
    intro i
    have e : ∀ k, k < 2 → extend (fun _ : Fin 2 => (⟨fun _ => fin (2 - 2 ^ (-52 : ℤ)) hp⟩ :
        PointN (Fl F) 1)) k = ⟨fun _ => fin (2 - 2 ^ (-52 : ℤ)) hp⟩ := fun k hk => extend_lt _ hk
    simp only [cas]
    rw [e 0 (by norm_num), e 1 (by norm_num)]
    show fin (2 - 2 ^ (-52 : ℤ)) hp * (-(fin (3 / 8) ht) + lit 1 : Fl F)
      + fin (2 - 2 ^ (-52 : ℤ)) hp * (fin (3 / 8) ht : Fl F) = fin (2 - 2 ^ (-51 : ℤ)) hq
    rw [lit_one, fin_neg, fin_add, round_eq (y := 5 / 8) (by norm_num)
      (ok 5 (-3) (by norm_num) (by norm_num) (by norm_num) (by norm_num [abs_le])), fin_mul,
      round_binade cosI acosI powI (y := 5 / 4 - 2 ^ (-52 : ℤ)) 0 (5 * 2 ^ 50 - 1) (by norm_num)
        (by norm_num) (by norm_num) (Or.inl (by norm_num [abs_lt])) (by norm_num)
        (ok (5 * 2 ^ 50 - 1) (-52) (by norm_num) (by norm_num) (by norm_num)
          (by norm_num [abs_le])), fin_mul,
      round_binade cosI acosI powI (y := 3 / 4 - 2 ^ (-53 : ℤ)) (-1) (3 * 2 ^ 51 - 1) (by norm_num)
        (by norm_num) (by norm_num) (Or.inl (by norm_num [abs_lt])) (by norm_num)
        (ok (3 * 2 ^ 51 - 1) (-53) (by norm_num) (by norm_num) (by norm_num)
          (by norm_num [abs_le])), fin_add,
      round_binade cosI acosI powI (y := 2 - 2 ^ (-51 : ℤ)) 0 (2 ^ 53 - 2) (by norm_num)
        (by norm_num) (by norm_num) (Or.inr ⟨by norm_num [abs_div], by decide⟩) (by norm_num) hq]
  · have ht := ok 1 (-2) (by norm_num) (by norm_num) (x := 1 / 4) (by norm_num)
      (by norm_num [abs_le])
    refine ⟨fin (1 / 4) ht, ?_⟩
    apply pointN_ext
    intro i
    have l2 : (lit 2 : Fl F) = fin 2 (ok 2 0 (by norm_num) (by norm_num) (by norm_num)
        (by norm_num)) := round_eq (by norm_num) _
    show fin (2 - 2 ^ (-52 : ℤ)) hp
        * ((-(fin (1 / 4) ht) + lit 1) * (-(fin (1 / 4) ht) + lit 1) : Fl F)
      + fin (2 - 2 ^ (-52 : ℤ)) hp * (lit 2 : Fl F) * (-(fin (1 / 4) ht) + lit 1 : Fl F)
        * (fin (1 / 4) ht : Fl F)
      + fin (2 - 2 ^ (-52 : ℤ)) hp * (fin (1 / 4) ht * fin (1 / 4) ht : Fl F)
      = fin (2 - 2 ^ (-51 : ℤ)) hq
    rw [lit_one, l2, fin_neg, fin_add, round_eq (y := 3 / 4) (by norm_num)
      (ok 3 (-2) (by norm_num) (by norm_num) (by norm_num) (by norm_num [abs_le])), fin_mul,
      round_eq (y := 9 / 16) (by norm_num)
      (ok 9 (-4) (by norm_num) (by norm_num) (by norm_num) (by norm_num [abs_le])), fin_mul,
      round_binade cosI acosI powI (y := 9 / 8 - 2 ^ (-52 : ℤ)) 0 (9 * 2 ^ 49 - 1) (by norm_num)
        (by norm_num) (by norm_num) (Or.inl (by norm_num [abs_lt])) (by norm_num)
        (ok (9 * 2 ^ 49 - 1) (-52) (by norm_num) (by norm_num) (by norm_num)
          (by norm_num [abs_le])), fin_mul,
      round_eq (y := 4 - 2 ^ (-51 : ℤ)) (by norm_num)
      (ok (2 ^ 53 - 1) (-51) (by norm_num) (by norm_num) (by norm_num) (by norm_num [abs_le])),
      fin_mul,
      round_binade cosI acosI powI (y := 3 - 2 ^ (-51 : ℤ)) 1 (3 * 2 ^ 51 - 1) (by norm_num)
        (by norm_num) (by norm_num) (Or.inl (by norm_num [abs_lt])) (by norm_num)
        (ok (3 * 2 ^ 51 - 1) (-51) (by norm_num) (by norm_num) (by norm_num)
          (by norm_num [abs_le])), fin_mul,
      round_eq (y := 3 / 4 - 2 ^ (-53 : ℤ)) (by norm_num)
      (ok (3 * 2 ^ 51 - 1) (-53) (by norm_num) (by norm_num) (by norm_num)
        (by norm_num [abs_le])), fin_add,
      round_binade cosI acosI powI (y := 15 / 8 - 2 ^ (-51 : ℤ)) 0 (15 * 2 ^ 49 - 2) (by norm_num)
        (by norm_num) (by norm_num) (Or.inr ⟨by norm_num [abs_div], by decide⟩) (by norm_num)
        (ok (15 * 2 ^ 49 - 2) (-52) (by norm_num) (by norm_num) (by norm_num)
          (by norm_num [abs_le])), fin_mul,
      round_eq (y := 1 / 16) (by norm_num)
      (ok 1 (-4) (by norm_num) (by norm_num) (by norm_num) (by norm_num [abs_le])), fin_mul,
      round_eq (y := 1 / 8 - 2 ^ (-56 : ℤ)) (by norm_num)
      (ok (2 ^ 53 - 1) (-56) (by norm_num) (by norm_num) (by norm_num)
        (by norm_num [abs_le])), fin_add,
      round_binade cosI acosI powI (y := 2 - 2 ^ (-51 : ℤ)) 0 (2 ^ 53 - 2) (by norm_num)
        (by norm_num) (by norm_num) (Or.inl (by norm_num [abs_lt])) (by norm_num) hq]

/-- C97: already for quadratic curves the computed coordinate can go back.  The control
coordinates 0 < 2⁻⁴⁸ < 3 are sorted, yet `eval_casteljau` returns a smaller value at the larger
parameter 13/16 + 2⁻⁵³ than at 13/16. -/
theorem C97_monotone_false :
    let F := binary64 cosI acosI powI
    ∃ (q : QuadraticBezier (PointN (Fl F) 1)) (t t' : Fl F),
      Scalar.lt (q.start.coords 0) (q.ctrl.coords 0) = true
        ∧ Scalar.lt (q.ctrl.coords 0) (q.end_.coords 0) = true
        ∧ Scalar.lt (lit 0) t = true ∧ Scalar.lt t t' = true ∧ Scalar.lt t' (lit 1) = true
        ∧ Scalar.lt ((q.evalCasteljau t').coords 0) ((q.evalCasteljau t).coords 0) = true := by
  intro F
  have ok := dyadic_ok cosI acosI powI
  have h3 := ok 3 0 (by norm_num) (by norm_num) (x := 3) (by norm_num) (by norm_num)
  have hb := ok 1 (-48) (by norm_num) (by norm_num) (x := 2 ^ (-48 : ℤ)) (by norm_num)
    (by norm_num [abs_le])
  have ht := ok 13 (-4) (by norm_num) (by norm_num) (x := 13 / 16) (by norm_num)
    (by norm_num [abs_le])
  have ht' := ok (13 * 2 ^ 49 + 1) (-53) (by norm_num) (by norm_num)
    (x := 13 / 16 + 2 ^ (-53 : ℤ)) (by norm_num) (by norm_num [abs_le])
  have okcb := ok (3 * 2 ^ 48 - 1) (-48) (by norm_num) (by norm_num) (x := 3 - 2 ^ (-48 : ℤ))
    (by norm_num) (by norm_num [abs_le])
  have okbc := ok (39 * 2 ^ 47 + 2) (-51) (by norm_num) (by norm_num)
    (x := 39 / 16 + 2 ^ (-50 : ℤ)) (by norm_num) (by norm_num [abs_le])
  have okm := ok (39 * 2 ^ 47 - 6) (-51) (by norm_num) (by norm_num)
    (x := 39 / 16 - 12 * 2 ^ (-52 : ℤ)) (by norm_num) (by norm_num [abs_le])
  refine ⟨⟨⟨fun _ => fin 0 F.zero_ok⟩, ⟨fun _ => fin (2 ^ (-48 : ℤ)) hb⟩, ⟨fun _ => fin 3 h3⟩⟩,
    fin (13 / 16) ht, fin (13 / 16 + 2 ^ (-53 : ℤ)) ht', ?_⟩
  have hr := ok (507 * 2 ^ 44 + 7) (-52) (by norm_num) (by norm_num)
    (x := 507 / 256 + 7 * 2 ^ (-52 : ℤ)) (by norm_num) (by norm_num [abs_le])
  have hr' := ok (507 * 2 ^ 44 + 6) (-52) (by norm_num) (by norm_num)
    (x := 507 / 256 + 6 * 2 ^ (-52 : ℤ)) (by norm_num) (by norm_num [abs_le])
  have e1 : ((⟨⟨fun _ => fin 0 F.zero_ok⟩, ⟨fun _ => fin (2 ^ (-48 : ℤ)) hb⟩,
      ⟨fun _ => fin 3 h3⟩⟩ : QuadraticBezier (PointN (Fl F) 1)).evalCasteljau
        (fin (13 / 16) ht : Fl F)).coords 0 = fin (507 / 256 + 7 * 2 ^ (-52 : ℤ)) hr := by
    have ab : (fin 0 F.zero_ok : Fl F) + (fin (2 ^ (-48 : ℤ)) hb - fin 0 F.zero_ok)
        * fin (13 / 16) ht = fin (13 * 2 ^ (-52 : ℤ)) (ok 13 (-52) (by norm_num) (by norm_num)
          (by norm_num) (by norm_num [abs_le])) := by
      rw [fin_sub, round_eq (y := 2 ^ (-48 : ℤ)) (by norm_num) hb, fin_mul,
        round_eq (y := 13 * 2 ^ (-52 : ℤ)) (by norm_num) (ok 13 (-52) (by norm_num) (by norm_num)
          (by norm_num) (by norm_num [abs_le])), fin_add]
      exact round_eq (by norm_num) _
    have bc : (fin (2 ^ (-48 : ℤ)) hb : Fl F) + (fin 3 h3 - fin (2 ^ (-48 : ℤ)) hb)
        * fin (13 / 16) ht = fin (39 / 16 + 2 ^ (-50 : ℤ)) okbc := by
      rw [fin_sub, round_eq (y := 3 - 2 ^ (-48 : ℤ)) (by norm_num) okcb, fin_mul,
        round_binade cosI acosI powI (y := 39 / 16 - 12 * 2 ^ (-52 : ℤ)) 1 (39 * 2 ^ 47 - 6)
          (by norm_num) (by norm_num) (by norm_num) (Or.inr ⟨by norm_num [abs_div], by decide⟩)
          (by norm_num) okm, fin_add]
      exact round_eq (by norm_num) _
    show ((fin 0 F.zero_ok : Fl F) + (fin (2 ^ (-48 : ℤ)) hb - fin 0 F.zero_ok)
        * fin (13 / 16) ht) + (((fin (2 ^ (-48 : ℤ)) hb : Fl F)
        + (fin 3 h3 - fin (2 ^ (-48 : ℤ)) hb) * fin (13 / 16) ht)
        - ((fin 0 F.zero_ok : Fl F) + (fin (2 ^ (-48 : ℤ)) hb - fin 0 F.zero_ok)
          * fin (13 / 16) ht)) * fin (13 / 16) ht = _
    rw [ab, bc, fin_sub,
      round_binade cosI acosI powI (y := 39 / 16 - 8 * 2 ^ (-52 : ℤ)) 1 (39 * 2 ^ 47 - 4)
        (by norm_num) (by norm_num) (by norm_num) (Or.inr ⟨by norm_num [abs_div], by decide⟩)
        (by norm_num) (ok (39 * 2 ^ 47 - 4) (-51) (by norm_num) (by norm_num) (by norm_num)
          (by norm_num [abs_le])), fin_mul,
      round_binade cosI acosI powI (y := 507 / 256 - 6 * 2 ^ (-52 : ℤ)) 0 (507 * 2 ^ 44 - 6)
        (by norm_num) (by norm_num) (by norm_num) (Or.inr ⟨by norm_num [abs_div], by decide⟩)
        (by norm_num) (ok (507 * 2 ^ 44 - 6) (-52) (by norm_num) (by norm_num) (by norm_num)
          (by norm_num [abs_le])), fin_add]
    exact round_eq (by norm_num) _
  have e2 : ((⟨⟨fun _ => fin 0 F.zero_ok⟩, ⟨fun _ => fin (2 ^ (-48 : ℤ)) hb⟩,
      ⟨fun _ => fin 3 h3⟩⟩ : QuadraticBezier (PointN (Fl F) 1)).evalCasteljau
        (fin (13 / 16 + 2 ^ (-53 : ℤ)) ht' : Fl F)).coords 0
      = fin (507 / 256 + 6 * 2 ^ (-52 : ℤ)) hr' := by
    have okab := ok (13 * 2 ^ 49 + 1) (-101) (by norm_num) (by norm_num)
      (x := 13 * 2 ^ (-52 : ℤ) + 2 ^ (-101 : ℤ)) (by norm_num) (by norm_num [abs_le])
    have ab : (fin 0 F.zero_ok : Fl F) + (fin (2 ^ (-48 : ℤ)) hb - fin 0 F.zero_ok)
        * fin (13 / 16 + 2 ^ (-53 : ℤ)) ht'
        = fin (13 * 2 ^ (-52 : ℤ) + 2 ^ (-101 : ℤ)) okab := by
      rw [fin_sub, round_eq (y := 2 ^ (-48 : ℤ)) (by norm_num) hb, fin_mul,
        round_eq (y := 13 * 2 ^ (-52 : ℤ) + 2 ^ (-101 : ℤ)) (by norm_num) okab, fin_add]
      exact round_eq (by norm_num) _
    have bc : (fin (2 ^ (-48 : ℤ)) hb : Fl F) + (fin 3 h3 - fin (2 ^ (-48 : ℤ)) hb)
        * fin (13 / 16 + 2 ^ (-53 : ℤ)) ht' = fin (39 / 16 + 2 ^ (-50 : ℤ)) okbc := by
      rw [fin_sub, round_eq (y := 3 - 2 ^ (-48 : ℤ)) (by norm_num) okcb, fin_mul,
        round_binade cosI acosI powI (y := 39 / 16 - 12 * 2 ^ (-52 : ℤ)) 1 (39 * 2 ^ 47 - 6)
          (by norm_num) (by norm_num) (by norm_num) (Or.inl (by norm_num [abs_lt]))
          (by norm_num) okm, fin_add]
      exact round_eq (by norm_num) _
    show ((fin 0 F.zero_ok : Fl F) + (fin (2 ^ (-48 : ℤ)) hb - fin 0 F.zero_ok)
        * fin (13 / 16 + 2 ^ (-53 : ℤ)) ht') + (((fin (2 ^ (-48 : ℤ)) hb : Fl F)
        + (fin 3 h3 - fin (2 ^ (-48 : ℤ)) hb) * fin (13 / 16 + 2 ^ (-53 : ℤ)) ht')
        - ((fin 0 F.zero_ok : Fl F) + (fin (2 ^ (-48 : ℤ)) hb - fin 0 F.zero_ok)
          * fin (13 / 16 + 2 ^ (-53 : ℤ)) ht')) * fin (13 / 16 + 2 ^ (-53 : ℤ)) ht' = _
    rw [ab, bc, fin_sub,
      round_binade cosI acosI powI (y := 39 / 16 - 10 * 2 ^ (-52 : ℤ)) 1 (39 * 2 ^ 47 - 5)
        (by norm_num) (by norm_num) (by norm_num) (Or.inl (by norm_num [abs_lt]))
        (by norm_num) (ok (39 * 2 ^ 47 - 5) (-51) (by norm_num) (by norm_num) (by norm_num)
          (by norm_num [abs_le])), fin_mul,
      round_binade cosI acosI powI (y := 507 / 256 - 7 * 2 ^ (-52 : ℤ)) 0 (507 * 2 ^ 44 - 7)
        (by norm_num) (by norm_num) (by norm_num) (Or.inl (by norm_num [abs_lt]))
        (by norm_num) (ok (507 * 2 ^ 44 - 7) (-52) (by norm_num) (by norm_num) (by norm_num)
          (by norm_num [abs_le])), fin_add,
      round_binade cosI acosI powI (y := 507 / 256 + 6 * 2 ^ (-52 : ℤ)) 0 (507 * 2 ^ 44 + 6)
        (by norm_num) (by norm_num) (by norm_num) (Or.inl (by norm_num [abs_lt]))
        (by norm_num) hr']
  refine ⟨?_, ?_, ?_, ?_, ?_, ?_⟩
  · exact lt_fin.2 (by positivity)
  · exact lt_fin.2 (by norm_num)
  · rw [lit_zero]; exact lt_fin.2 (by norm_num)
  · exact lt_fin.2 (by norm_num)
  · rw [lit_one]; exact lt_fin.2 (by norm_num)
  · rw [e1, e2]; exact lt_fin.2 (by norm_num)

end

/-! ### The hypotheses can be met -/

/-- A segment from 1 to 2 and the parameters 0 and 1, in any format. -/
example (F : FloatFormat) : Scalar.le (lit 0 : Fl F) (lit 1) = true
    ∧ ((lit 2 : Fl F) - lit 1).IsFinite ∧ Scalar.le (lit 1 : Fl F) (lit 2) = true := by
  have h2 : (lit 2 : Fl F) = fin 2 (by simpa using F.int_ok 2 (by norm_num)) := by
    have := lit_int (F := F) 2 (by norm_num)
    exact_mod_cast this
  refine ⟨?_, ?_, ?_⟩
  · rw [lit_zero, lit_one]; exact le_fin.2 (by norm_num)
  · rw [h2, lit_one, fin_sub, show (2 : ℝ) - 1 = 1 by norm_num, F.round_of_mem F.one_ok]; trivial
  · rw [h2, lit_one]; exact le_fin.2 (by norm_num)

end Stroke
