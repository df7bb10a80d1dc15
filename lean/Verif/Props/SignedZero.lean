import Verif.Spec.SignedZero
import Verif.Lemmas.ScalarMaps
import Verif.Lemmas.Ieee
import Verif.Lemmas.Fill
import Mathlib.Analysis.SpecialFunctions.Pow.Real

set_option linter.unusedSectionVars false

/-!
# The sign of zero does not matter (C107)
-/

namespace Stroke

namespace SFl

variable {F : FloatFormat}

theorem forget_round (x : ℝ) : (round F x).forget = F.round x := by
  unfold round
  by_cases h0 : F.rnd x = 0
  · rw [dif_pos h0]
    show F.round 0 = _
    rw [F.round_of_mem F.zero_ok]
    unfold FloatFormat.round
    rw [dif_pos (by rw [h0]; exact F.zero_ok.2)]
    simp only [h0]
  · rw [dif_neg h0]
    unfold FloatFormat.round
    by_cases h : |F.rnd x| ≤ F.max
    · rw [dif_pos h, dif_pos h]; rfl
    · rw [dif_neg h, dif_neg h]; rfl

theorem forget_zero (s : Bool) : (zero s : SFl F).forget = .fin 0 F.zero_ok :=
  F.round_of_mem F.zero_ok

theorem forget_nan : (nan : SFl F).forget = .nan := rfl

theorem forget_inf (s : Bool) : (inf s : SFl F).forget = .inf s := rfl

theorem forget_fin (r : ℝ) (h : r ∈ F.grid ∧ |r| ≤ F.max) (h0 : r ≠ 0) :
    (fin r h h0 : SFl F).forget = .fin r h := rfl

theorem forget_ofFl (x : Fl F) : (ofFl x).forget = x := by
  cases x with
  | nan => rfl
  | inf s => rfl
  | fin r h =>
    simp only [ofFl]
    by_cases h0 : r = 0
    · rw [dif_pos h0, forget_zero]; subst h0; rfl
    · rw [dif_neg h0]; rfl

theorem forget_neg (x : SFl F) : (-x).forget = -x.forget := by
  cases x with
  | nan => rfl
  | inf s => rfl
  | zero s =>
    show (zero (!s)).forget = Fl.neg (zero s).forget
    rw [forget_zero, forget_zero]
    simp only [Fl.neg, neg_zero]
  | fin r h h0 => rfl

theorem forget_add (x y : SFl F) : (x + y).forget = x.forget + y.forget := by
  show (add x y).forget = Fl.add x.forget y.forget
  cases x with
  | nan => rfl
  | inf s => cases y with
    | nan => rfl
    | inf s' => simp only [add, forget_inf, Fl.add]; split <;> rfl
    | zero s' => rw [forget_zero]; rfl
    | fin b h h0 => rfl
  | zero s => cases y with
    | nan => rw [forget_zero]; rfl
    | inf s' => rw [forget_zero]; rfl
    | zero s' =>
      simp only [add, forget_zero, Fl.add, add_zero]
      exact (F.round_of_mem F.zero_ok).symm
    | fin b h h0 =>
      simp only [add, forget_zero, forget_nan, forget_inf, forget_fin, Fl.add, zero_add]
      exact (F.round_of_mem h).symm
  | fin a ha ha0 => cases y with
    | nan => rfl
    | inf s' => rfl
    | zero s' =>
      simp only [add, forget_zero, forget_nan, forget_inf, forget_fin, Fl.add, add_zero]
      exact (F.round_of_mem ha).symm
    | fin b h h0 => exact forget_round _

theorem forget_sub (x y : SFl F) : (x - y).forget = x.forget - y.forget := by
  show (x + -y).forget = x.forget + -y.forget
  rw [forget_add, forget_neg]

theorem forget_mul (x y : SFl F) : (x * y).forget = x.forget * y.forget := by
  show (mul x y).forget = Fl.mul x.forget y.forget
  have hz := F.round_of_mem F.zero_ok
  cases x with
  | nan => rfl
  | inf s => cases y with
    | nan => rfl
    | inf s' => rfl
    | zero s' => rw [forget_zero]; simp only [mul, forget_nan, forget_inf, forget_fin, Fl.mul, if_true]
    | fin b h h0 => simp only [mul, forget_nan, forget_inf, forget_fin, Fl.mul, if_neg h0]
  | zero s => cases y with
    | nan => rw [forget_zero]; rfl
    | inf s' => rw [forget_zero]; simp only [mul, forget_nan, forget_inf, forget_fin, Fl.mul, if_true]
    | zero s' => simp only [mul, forget_zero, Fl.mul, mul_zero, hz]
    | fin b h h0 => simp only [mul, forget_zero, forget_nan, forget_inf, forget_fin, Fl.mul, zero_mul, hz]
  | fin a ha ha0 => cases y with
    | nan => rfl
    | inf s' => simp only [mul, forget_nan, forget_inf, forget_fin, Fl.mul, if_neg ha0]
    | zero s' => simp only [mul, forget_zero, forget_nan, forget_inf, forget_fin, Fl.mul, mul_zero, hz]
    | fin b h h0 => exact forget_round _

/-- Division is respected unless the divisor is -0. -/
theorem forget_div (x y : SFl F) (hy : y ≠ zero true) : (x / y).forget = x.forget / y.forget := by
  show (div x y).forget = Fl.div x.forget y.forget
  have hz := F.round_of_mem F.zero_ok
  have hf : ∀ s, (zero s : SFl F) ≠ zero true → s = false := by
    intro s hs; cases s
    · rfl
    · exact absurd rfl hs
  cases x with
  | nan => rfl
  | inf s => cases y with
    | nan => rfl
    | inf s' => rfl
    | zero s' =>
      rw [hf s' hy, forget_zero]
      simp only [div, forget_nan, forget_inf, forget_fin, Fl.div, lt_irrefl, decide_false]
    | fin b h h0 => simp only [div, forget_nan, forget_inf, forget_fin, Fl.div]
  | zero s => cases y with
    | nan => rw [forget_zero]; rfl
    | inf s' => simp only [div, forget_zero, forget_nan, forget_inf, forget_fin, Fl.div, hz]
    | zero s' => simp only [div, forget_zero, forget_nan, forget_inf, forget_fin, Fl.div, if_true]
    | fin b h h0 => simp only [div, forget_zero, forget_nan, forget_inf, forget_fin, Fl.div, zero_div, hz, if_neg h0]
  | fin a ha ha0 => cases y with
    | nan => rfl
    | inf s' => simp only [div, forget_zero, forget_inf, forget_fin, Fl.div, hz]
    | zero s' =>
      rw [hf s' hy, forget_zero]
      simp only [div, forget_nan, forget_inf, forget_fin, Fl.div, if_true, if_neg ha0, Bool.false_bne]
    | fin b h h0 =>
      simp only [forget_fin, Fl.div, if_neg h0]
      exact forget_round _

theorem forget_abs (x : SFl F) : (Scalar.abs x).forget = Scalar.abs x.forget := by
  cases x with
  | nan => rfl
  | inf s => rfl
  | zero s =>
    show (zero false).forget = Fl.abs (zero s).forget
    rw [forget_zero, forget_zero]
    simp only [Fl.abs, abs_zero]
  | fin r h h0 => rfl

theorem forget_sqrt (x : SFl F) : (Scalar.sqrt x).forget = Scalar.sqrt x.forget := by
  cases x with
  | nan => rfl
  | inf s => cases s <;> rfl
  | zero s =>
    show (zero s).forget = Fl.sqrt (zero s).forget
    rw [forget_zero]
    simp only [Fl.sqrt, lt_irrefl, if_false, Real.sqrt_zero]
    exact (F.round_of_mem F.zero_ok).symm
  | fin r h h0 =>
    show (sqrt (fin r h h0)).forget = Fl.sqrt (.fin r h)
    simp only [sqrt, Fl.sqrt]
    split
    · rfl
    · exact forget_round _

theorem forget_signum (x : SFl F) (hx : x ≠ zero true) :
    (Scalar.signum x).forget = Scalar.signum x.forget := by
  cases x with
  | nan => rfl
  | inf s =>
    show (signum (inf s)).forget = Fl.signum (.inf s)
    simp only [signum, Fl.signum]
    split <;> exact forget_round _
  | zero s =>
    have : s = false := by
      cases s
      · rfl
      · exact absurd rfl hx
    subst this
    show (signum (zero false)).forget = Fl.signum (zero false).forget
    rw [forget_zero]
    simp only [signum, Fl.signum, lt_irrefl, if_false, Bool.false_eq_true]
    exact forget_round _
  | fin r h h0 =>
    show (signum (fin r h h0)).forget = Fl.signum (.fin r h)
    simp only [signum, Fl.signum]
    split <;> exact forget_round _

/-- A number that is not below the machine epsilon is not -0. -/
theorem ne_of_guard {y : SFl F} (h : Scalar.lt y Scalar.epsilon = false
    ∨ Scalar.lt (Scalar.abs y) Scalar.epsilon = false) : y ≠ zero true := by
  rintro rfl
  have e : Scalar.lt (.fin 0 F.zero_ok : Fl F) Scalar.epsilon = true := by
    rw [Fl.epsilon_eq, Fl.lt_fin]
    simpa using F.epsilon_pos
  have he : (Scalar.epsilon : SFl F).forget = Scalar.epsilon := forget_round _
  rcases h with h | h
  · have h' : Scalar.lt (zero true : SFl F).forget (Scalar.epsilon : SFl F).forget = false := h
    rw [forget_zero, he, e] at h'
    cases h'
  · have h' : Scalar.lt (zero false : SFl F).forget (Scalar.epsilon : SFl F).forget = false := h
    rw [forget_zero, he, e] at h'
    cases h'

theorem ne_of_forget {y : SFl F} {r : ℝ} {h : r ∈ F.grid ∧ |r| ≤ F.max} (e : y.forget = .fin r h)
    (h0 : r ≠ 0) : y ≠ zero true := by
  rintro rfl
  rw [forget_zero] at e
  simp only [Fl.fin.injEq] at e
  exact h0 e.symm

theorem round_ne {x : ℝ} (hx : 0 ≤ x) : round F x ≠ zero true := by
  unfold round
  rw [decide_eq_false (not_lt.2 hx)]
  split_ifs <;> simp

theorem lit_ne {q : ℚ} (hq : 0 ≤ q) : (lit q : SFl F) ≠ zero true :=
  round_ne (by exact_mod_cast hq)

theorem ofUsize_ne (n : ℕ) : (Scalar.ofUsize n : SFl F) ≠ zero true :=
  round_ne (Nat.cast_nonneg n)

theorem forget_acos_div (x y : SFl F) :
    (Scalar.acos (x / y)).forget = Scalar.acos (x.forget / y.forget) := by
  show (ofFl (x / y).forget.acos).forget = _
  rw [forget_ofFl]
  by_cases hy : y = zero true
  · subst hy
    rw [forget_zero]
    show Fl.acos (div x (zero true)).forget = Fl.acos (Fl.div x.forget (.fin 0 F.zero_ok))
    cases x with
    | nan => rfl
    | inf s => rfl
    | zero s => rw [forget_zero]; simp only [div, forget_nan, Fl.div, if_true]
    | fin r h h0 =>
      simp only [div, forget_fin, forget_inf, Fl.div, if_true, if_neg h0]
      rfl
  · rw [forget_div x y hy]; rfl

theorem forget_lit (q : ℚ) : (lit q : SFl F).forget = lit q := forget_round _

theorem third : ∃ h, (lit 1 / lit 3 : Fl F) = .fin (F.rnd (1 / 3)) h := by
  have h1 := F.rnd_mono (show (0 : ℝ) ≤ 1 / 3 by norm_num)
  have h2 := F.rnd_mono (show (1 / 3 : ℝ) ≤ 1 by norm_num)
  rw [F.rnd_of_mem 0 F.zero_ok.1] at h1
  rw [F.rnd_of_mem 1 F.one_ok.1] at h2
  have h3 : |F.rnd (1 / 3)| ≤ F.max := by
    rw [abs_of_nonneg h1]
    exact h2.trans (le_trans (by norm_num) F.max_ge)
  refine ⟨⟨F.rnd_mem _, h3⟩, ?_⟩
  have e := Fl.lit_int (F := F) 3 (by norm_num)
  rw [show (((3 : ℤ) : ℚ)) = 3 by norm_num] at e
  rw [e, Fl.lit_one]
  show Fl.div _ _ = _
  simp only [Fl.div, Int.cast_ofNat, if_neg (show (3 : ℝ) ≠ 0 by norm_num)]
  unfold FloatFormat.round
  rw [dif_pos h3]

theorem forget_cbrt (hp : PowZero F) (x : SFl F) :
    (Scalar.signum x * Scalar.powf (Scalar.abs x) (lit 1 / lit 3)).forget
      = Scalar.signum x.forget * Scalar.powf (Scalar.abs x.forget) (lit 1 / lit 3) := by
  have h3 : (lit 1 / lit 3 : SFl F).forget = lit 1 / lit 3 := by
    rw [forget_div _ _ (lit_ne (by norm_num)), forget_lit, forget_lit]
  have hpow : (Scalar.powf (Scalar.abs x) (lit 1 / lit 3)).forget
      = Scalar.powf (Scalar.abs x.forget) (lit 1 / lit 3) := by
    show (ofFl (Fl.powf _ _)).forget = _
    rw [forget_ofFl, h3, forget_abs]; rfl
  rw [forget_mul, hpow]
  by_cases hx : x = zero true
  · subst hx
    obtain ⟨h, e⟩ := third (F := F)
    have ez : Scalar.powf (Scalar.abs (zero true : SFl F).forget) (lit 1 / lit 3)
        = .fin 0 F.zero_ok := by
      rw [forget_zero, e]
      show Fl.powf (.fin |0| _) _ = _
      simp only [Fl.powf, abs_zero, lt_irrefl, if_false]
      rw [show F.powImpl 0 (F.rnd (1 / 3)) = 0 from hp, F.round_of_mem F.zero_ok]
    rw [ez, forget_zero]
    have hm : F.round (-1) = .fin (-1) ⟨F.neg_mem _ F.one_ok.1, by
        rw [abs_neg]; exact F.one_ok.2⟩ := F.round_of_mem _
    have e1 : (Scalar.signum (zero true : SFl F)).forget = F.round (-1) := forget_round _
    have e2 : Scalar.signum (.fin 0 F.zero_ok : Fl F) = F.round 1 := by
      show Fl.signum _ = _
      simp only [Fl.signum, lt_irrefl, if_false]
    rw [e1, e2, hm, F.round_of_mem F.one_ok]
    show F.round (-1 * 0) = F.round (1 * 0)
    rw [mul_zero, mul_zero]
  · rw [forget_signum x hx]

theorem forget_double (x y : SFl F) (h : Scalar.lt (Scalar.abs y) Scalar.epsilon = false) :
    (x / (y * lit 2)).forget = x.forget / (y.forget * lit 2) := by
  have hy := ne_of_guard (Or.inr h)
  have e2 : (lit 2 : SFl F).forget = .fin 2 (by simpa using F.int_ok 2 (by norm_num)) := by
    rw [forget_lit]
    simpa using Fl.lit_int (F := F) 2 (by norm_num)
  rw [forget_div, forget_mul, forget_lit]
  show mul y (lit 2) ≠ zero true
  intro e
  rcases hl : (lit 2 : SFl F) with _ | s | s | ⟨r, hr, hr0⟩
  · rw [hl] at e2; cases e2
  · rw [hl] at e2; cases e2
  · rw [hl, forget_zero] at e2; simp at e2
  · rw [hl, forget_fin] at e2
    simp only [Fl.fin.injEq] at e2
    subst e2
    rw [hl] at e
    cases y with
    | nan => simp [mul] at e
    | inf s => simp [mul] at e
    | zero s =>
      cases s
      · simp [mul] at e
        linarith
      · exact hy rfl
    | fin a ha ha0 =>
      simp only [mul, round] at e
      split_ifs at e with h0 h1
      rcases lt_or_gt_of_ne ha0 with hn | hp
      · have := F.rnd_mono (show a * 2 ≤ a by linarith)
        rw [F.rnd_of_mem a ha.1, h0] at this
        linarith
      · have := F.rnd_mono (show a ≤ a * 2 by linarith)
        rw [F.rnd_of_mem a ha.1, h0] at this
        linarith

/-- Forgetting the signs of zeros respects all operations as the library uses them. -/
theorem forget_map (hp : PowZero F) : ScalarMap (forget : SFl F → Fl F) where
  add := forget_add
  sub := forget_sub
  mul := forget_mul
  neg := forget_neg
  lit := forget_lit
  ofUsize _ := forget_round _
  epsilon := forget_round _
  lt _ _ := rfl
  le _ _ := rfl
  eq _ _ := rfl
  isNaN _ := rfl
  abs := forget_abs
  sqrt := forget_sqrt
  cos x := forget_ofFl _
  div_usize x n := by
    rw [forget_div _ _ (ofUsize_ne n)]
    exact congrArg (x.forget / ·) (forget_round _)
  div_lit x n _ _ := by
    rw [forget_div _ _ (lit_ne (Nat.cast_nonneg n)), forget_lit]
  div_guard x y h := forget_div x y (ne_of_guard h)
  div_double := forget_double
  acos_div := forget_acos_div
  cbrt := forget_cbrt hp

end SFl

/-! ### Equality up to the signs of zeros, as equality after forgetting them -/

section
open SFl
variable {F : FloatFormat} {n : ℕ}

/-- Abbreviation for the map on points. -/
noncomputable abbrev forgetP (p : PointN (SFl F) n) : PointN (Fl F) n := p.mapC forget

theorem same_scalar {x y : SFl F} : x ∼₀ y ↔ x.forget = y.forget := by
  show (x = y ∨ ∃ s s', x = .zero s ∧ y = .zero s') ↔ _
  constructor
  · rintro (rfl | ⟨s, s', rfl, rfl⟩)
    · rfl
    · rw [forget_zero, forget_zero]
  · intro h
    cases x with
    | nan => cases y with
      | nan => exact Or.inl rfl
      | inf s => cases h
      | zero s => rw [forget_zero] at h; cases h
      | fin r hr hr0 => cases h
    | inf s => cases y with
      | nan => cases h
      | inf s' => simp only [forget_inf, Fl.inf.injEq] at h; subst h; exact Or.inl rfl
      | zero s' => rw [forget_zero] at h; cases h
      | fin r hr hr0 => cases h
    | zero s => cases y with
      | nan => rw [forget_zero] at h; cases h
      | inf s' => rw [forget_zero] at h; cases h
      | zero s' => exact Or.inr ⟨s, s', rfl, rfl⟩
      | fin r hr hr0 =>
        rw [forget_zero, forget_fin] at h
        simp only [Fl.fin.injEq] at h
        exact absurd h.symm hr0
    | fin r hr hr0 => cases y with
      | nan => cases h
      | inf s' => cases h
      | zero s' =>
        rw [forget_zero, forget_fin] at h
        simp only [Fl.fin.injEq] at h
        exact absurd h hr0
      | fin r' hr' hr0' =>
        simp only [forget_fin, Fl.fin.injEq] at h
        subst h
        exact Or.inl rfl

theorem same_point {p q : PointN (SFl F) n} : p ∼₀ q ↔ forgetP p = forgetP q := by
  show (∀ i, p.coords i ∼₀ q.coords i) ↔ _
  simp only [same_scalar, forgetP, PointN.mapC, PointN.mk.injEq, funext_iff]

theorem same_option {α β : Type} [SameZero α] {f : α → β} (hf : ∀ a b : α, a ∼₀ b ↔ f a = f b)
    (x y : Option α) : x ∼₀ y ↔ x.map f = y.map f := by
  cases x <;> cases y
  · exact iff_of_true trivial rfl
  · exact iff_of_false id (by simp)
  · exact iff_of_false id (by simp)
  · simp only [Option.map_some, Option.some.injEq]
    exact hf _ _

theorem same_outcome {α β : Type} [SameZero α] {f : α → β} (hf : ∀ a b : α, a ∼₀ b ↔ f a = f b)
    (x y : Outcome α) : x ∼₀ y ↔ x.mapOk f = y.mapOk f := by
  cases x <;> cases y <;> simp only [Outcome.mapOk]
  · rw [Outcome.ok.injEq]
    exact hf _ _
  · exact iff_of_false id (by simp)
  · exact iff_of_false id (by simp)
  · exact iff_of_false id (by simp)
  · rw [Outcome.err.injEq]
    exact Iff.rfl
  · exact iff_of_false id (by simp)
  · exact iff_of_false id (by simp)
  · exact iff_of_false id (by simp)
  · exact Iff.rfl

theorem same_list {α β : Type} [SameZero α] {f : α → β} (hf : ∀ a b : α, a ∼₀ b ↔ f a = f b)
    (x y : List α) : x ∼₀ y ↔ x.map f = y.map f := by
  show List.Forall₂ (· ∼₀ ·) x y ↔ _
  induction x generalizing y with
  | nil => cases y <;> simp
  | cons a l ih => cases y with
    | nil => simp
    | cons b l' => rw [List.forall₂_cons, List.map_cons, List.map_cons, List.cons.injEq, ih, hf]

theorem same_line {a b : LineSegment (PointN (SFl F) n)} :
    a ∼₀ b ↔ a.mapPts forgetP = b.mapPts forgetP := by
  show (_ ∼₀ _ ∧ _ ∼₀ _) ↔ _
  simp only [same_point, LineSegment.mapPts, LineSegment.mk.injEq]

theorem same_quadratic {a b : QuadraticBezier (PointN (SFl F) n)} :
    a ∼₀ b ↔ a.mapPts forgetP = b.mapPts forgetP := by
  show (_ ∼₀ _ ∧ _ ∼₀ _ ∧ _ ∼₀ _) ↔ _
  simp only [same_point, QuadraticBezier.mapPts, QuadraticBezier.mk.injEq]

theorem same_cubic {a b : CubicBezier (PointN (SFl F) n)} :
    a ∼₀ b ↔ a.mapPts forgetP = b.mapPts forgetP := by
  show (_ ∼₀ _ ∧ _ ∼₀ _ ∧ _ ∼₀ _ ∧ _ ∼₀ _) ↔ _
  simp only [same_point, CubicBezier.mapPts, CubicBezier.mk.injEq]

theorem same_segment {a b : BezierSegment (PointN (SFl F) n)} :
    a ∼₀ b ↔ a.mapPts forgetP = b.mapPts forgetP := by
  cases a <;> cases b <;> simp only [BezierSegment.mapPts]
  · rw [BezierSegment.linear.injEq]; exact same_line
  · exact iff_of_false id (by simp)
  · exact iff_of_false id (by simp)
  · exact iff_of_false id (by simp)
  · rw [BezierSegment.quadratic.injEq]; exact same_quadratic
  · exact iff_of_false id (by simp)
  · exact iff_of_false id (by simp)
  · exact iff_of_false id (by simp)
  · rw [BezierSegment.cubic.injEq]; exact same_cubic

theorem same_bezier {N : ℕ} {a b : Bezier (PointN (SFl F) n) N} :
    a ∼₀ b ↔ a.mapPts forgetP = b.mapPts forgetP := by
  show (∀ i, _ ∼₀ _) ↔ _
  simp only [same_point, Bezier.mapPts, Bezier.mk.injEq, funext_iff]

theorem same_bspline {K C D : ℕ} {a b : BSpline (SFl F) (PointN (SFl F) n) K C D} :
    a ∼₀ b ↔ a.mapC forget = b.mapC forget := by
  show ((∀ i, _ ∼₀ _) ∧ _ ∧ ∀ i, _ ∼₀ _) ↔ _
  simp only [same_point, same_scalar, BSpline.mapC, BSpline.mk.injEq, funext_iff]

theorem same_box {k : ℕ} (a b : Arr (SFl F × SFl F) k) :
    a ∼₀ b ↔ (fun i => ((a i).1.forget, (a i).2.forget)) = fun i => ((b i).1.forget, (b i).2.forget) := by
  show (∀ i, _ ∼₀ _ ∧ _ ∼₀ _) ↔ _
  simp only [same_scalar, funext_iff, Prod.mk.injEq]

/-! ### The same computation without the signs -/

/-- **C107**, points and curves over IEEE arithmetic and over the arithmetic without signs of
zeros: the results are the same, so what is proved about the latter holds of the former. -/
theorem C107_forget_curves (hp : PowZero F) (l : LineSegment (PointN (SFl F) n))
    (q : QuadraticBezier (PointN (SFl F) n)) (c : CubicBezier (PointN (SFl F) n))
    (s : BezierSegment (PointN (SFl F) n)) {N : ℕ} (b : Bezier (PointN (SFl F) n) N) (t : SFl F) :
    ((l.mapPts forgetP).eval t.forget = forgetP (l.eval t)
      ∧ (l.mapPts forgetP).split t.forget
          = ((l.split t).1.mapPts forgetP, (l.split t).2.mapPts forgetP)
      ∧ (l.mapPts forgetP).derivative = forgetP l.derivative)
    ∧ ((q.mapPts forgetP).eval t.forget = forgetP (q.eval t)
      ∧ (q.mapPts forgetP).evalCasteljau t.forget = forgetP (q.evalCasteljau t)
      ∧ (q.mapPts forgetP).split t.forget
          = ((q.split t).1.mapPts forgetP, (q.split t).2.mapPts forgetP)
      ∧ (q.mapPts forgetP).derivative = q.derivative.mapPts forgetP)
    ∧ ((c.mapPts forgetP).eval t.forget = forgetP (c.eval t)
      ∧ (c.mapPts forgetP).evalCasteljau t.forget = forgetP (c.evalCasteljau t)
      ∧ (c.mapPts forgetP).split t.forget
          = ((c.split t).1.mapPts forgetP, (c.split t).2.mapPts forgetP)
      ∧ (c.mapPts forgetP).derivative = c.derivative.mapPts forgetP)
    ∧ ((s.mapPts forgetP).eval t.forget = forgetP (s.eval t)
      ∧ (s.mapPts forgetP).split t.forget
          = ((s.split t).1.mapPts forgetP, (s.split t).2.mapPts forgetP))
    ∧ ((b.mapPts forgetP).eval t.forget = (b.eval t).map forgetP
      ∧ (b.mapPts forgetP).split t.forget
          = (b.split t).map (fun h => (h.1.mapPts forgetP, h.2.mapPts forgetP))
      ∧ Bezier.derivative (b.mapPts forgetP) = (Bezier.derivative b).map (Bezier.mapPts forgetP)) :=
  have h := forget_map hp
  ⟨h.line l t, h.quadratic q t, h.cubic c t, h.segment s t, h.bezier b t⟩

/-- **C107**, lengths, distances and flatness without the signs of zeros. -/
theorem C107_forget_measures (hp : PowZero F) (l : LineSegment (PointN (SFl F) n))
    (q : QuadraticBezier (PointN (SFl F) n)) (c : CubicBezier (PointN (SFl F) n))
    (s : BezierSegment (PointN (SFl F) n)) {N : ℕ} (b : Bezier (PointN (SFl F) n) N)
    (p : PointN (SFl F) n) (k : ℕ) (tol : SFl F) :
    ((q.mapPts forgetP).arclen k = (q.arclen k).map forget
      ∧ (c.mapPts forgetP).arclen k = (c.arclen k).map forget
      ∧ (b.mapPts forgetP).arclen k = (b.arclen k).map forget)
    ∧ ((l.mapPts forgetP).distanceToPoint (forgetP p) = (l.distanceToPoint p).map forget
      ∧ (q.mapPts forgetP).distanceToPoint (forgetP p) = (q.distanceToPoint p).map forget
      ∧ (c.mapPts forgetP).distanceToPoint (forgetP p) = (c.distanceToPoint p).map forget
      ∧ (b.mapPts forgetP).distanceToPoint (forgetP p) = (b.distanceToPoint p).map forget)
    ∧ ((q.mapPts forgetP).isAPoint tol.forget = q.isAPoint tol
      ∧ (c.mapPts forgetP).isAPoint tol.forget = c.isAPoint tol
      ∧ (q.mapPts forgetP).isLinear tol.forget = q.isLinear tol
      ∧ (c.mapPts forgetP).isLinear tol.forget = c.isLinear tol
      ∧ (s.mapPts forgetP).isLinear tol.forget = s.isLinear tol) := by
  have h := forget_map hp
  refine ⟨⟨?_, ?_, ?_⟩, ⟨h.lineDistance l p, ?_, ?_, ?_⟩, (h.isAPoint q c tol).1,
    (h.isAPoint q c tol).2, h.isLinear q c s tol⟩
  · rw [quadratic_arclen_eq, quadratic_arclen_eq]
    exact h.sampledArclen _ _ (fun t => congrArg some (h.quadratic q t).2.1) k
  · rw [cubic_arclen_eq, cubic_arclen_eq]
    exact h.sampledArclen _ _ (fun t => congrArg some (h.cubic c t).2.1) k
  · rw [bezier_arclen_eq, bezier_arclen_eq]
    exact h.sampledArclen _ _ (fun t => (h.bezier b t).1) k
  · rw [quadratic_distance_eq, quadratic_distance_eq]
    exact h.searchDistance _ _ (fun t => congrArg some (h.quadratic q t).1) q.start p
  · rw [cubic_distance_eq, cubic_distance_eq]
    exact h.searchDistance _ _ (fun t => congrArg some (h.cubic c t).1) c.start p
  · rw [bezier_distance_eq, bezier_distance_eq]
    rw [show (b.mapPts forgetP).control_points = fun i => forgetP (b.control_points i) from rfl,
      get?_comp forgetP]
    cases b.control_points.get? 0 with
    | none => rfl
    | some first => exact h.searchDistance _ _ (fun t => (h.bezier b t).1) first p

/-- **C107**, coordinates, roots and boxes without the signs of zeros. -/
theorem C107_forget_axes (hp : PowZero F) (l : LineSegment (PointN (SFl F) n))
    (q : QuadraticBezier (PointN (SFl F) n)) (c : CubicBezier (PointN (SFl F) n)) (t : SFl F)
    (i : ℕ) :
    ((l.mapPts forgetP).axis t.forget i = (l.axis t i).map forget
      ∧ (q.mapPts forgetP).axis t.forget i = (q.axis t i).map forget
      ∧ (q.mapPts forgetP).dd t.forget i = (q.dd t i).map forget
      ∧ (c.mapPts forgetP).axis t.forget i = (c.axis t i).map forget
      ∧ (c.mapPts forgetP).dd t.forget i = (c.dd t i).map forget)
    ∧ ((q.mapPts forgetP).solveTForAxis t.forget i = (q.solveTForAxis t i).map (List.map forget)
      ∧ (c.mapPts forgetP).solveTForAxis t.forget i = (c.solveTForAxis t i).map (List.map forget))
    ∧ ((l.mapPts forgetP).boundingBox
        = l.boundingBox.map (fun (b : Arr (SFl F × SFl F) n) k => ((b k).1.forget, (b k).2.forget))
      ∧ (q.mapPts forgetP).boundingBox
        = q.boundingBox.map (fun (b : Arr (SFl F × SFl F) n) k => ((b k).1.forget, (b k).2.forget))
      ∧ (c.mapPts forgetP).boundingBox
        = c.boundingBox.map
            (fun (b : Arr (SFl F × SFl F) n) k => ((b k).1.forget, (b k).2.forget))) :=
  have h := forget_map hp
  ⟨h.axes l q c t i, ⟨h.quadraticSolve q t i, h.cubicSolve c t i⟩,
    h.lineBox l, h.quadraticBox q, h.cubicBox c⟩

/-- **C107**, B-splines without the signs of zeros. -/
theorem C107_forget_bspline (hp : PowZero F) {K C D : ℕ} (knots : Arr (SFl F) K)
    (ps : Arr (PointN (SFl F) n) C) (b : BSpline (SFl F) (PointN (SFl F) n) K C D) (t : SFl F)
    (k : ℕ) :
    BSpline.new (D := D) (fun i => (knots i).forget) (fun i => forgetP (ps i))
        = (BSpline.new (D := D) knots ps).mapOk (BSpline.mapC forget)
      ∧ (b.mapC forget).knotDomain = b.knotDomain.map (fun d => (d.1.forget, d.2.forget))
      ∧ (b.mapC forget).eval t.forget = (b.eval t).mapOk forgetP
      ∧ (b.mapC forget).arclen k = (b.arclen k).map forget :=
  have h := forget_map hp
  ⟨h.bsplineNew knots ps, h.knotDomain b, h.bsplineEval b t, h.bsplineArclen b k⟩

/-! ### Inputs that differ in the signs of zeros -/

/-- **C107**: points and curves computed from inputs that differ only in the signs of zeros differ
only in the signs of zeros. -/
theorem C107_curves (hp : PowZero F) {l l' : LineSegment (PointN (SFl F) n)}
    {q q' : QuadraticBezier (PointN (SFl F) n)} {c c' : CubicBezier (PointN (SFl F) n)}
    {s s' : BezierSegment (PointN (SFl F) n)} {N : ℕ} {b b' : Bezier (PointN (SFl F) n) N}
    {t t' : SFl F} (hl : l ∼₀ l') (hq : q ∼₀ q') (hc : c ∼₀ c') (hs : s ∼₀ s') (hb : b ∼₀ b')
    (ht : t ∼₀ t') :
    (l.eval t ∼₀ l'.eval t' ∧ l.split t ∼₀ l'.split t' ∧ l.derivative ∼₀ l'.derivative)
    ∧ (q.eval t ∼₀ q'.eval t' ∧ q.evalCasteljau t ∼₀ q'.evalCasteljau t'
      ∧ q.split t ∼₀ q'.split t' ∧ q.derivative ∼₀ q'.derivative)
    ∧ (c.eval t ∼₀ c'.eval t' ∧ c.evalCasteljau t ∼₀ c'.evalCasteljau t'
      ∧ c.split t ∼₀ c'.split t' ∧ c.derivative ∼₀ c'.derivative)
    ∧ (s.eval t ∼₀ s'.eval t' ∧ s.split t ∼₀ s'.split t')
    ∧ (b.eval t ∼₀ b'.eval t' ∧ b.split t ∼₀ b'.split t'
      ∧ Bezier.derivative b ∼₀ Bezier.derivative b') := by
  have h := C107_forget_curves hp l q c s b t
  have h' := C107_forget_curves hp l' q' c' s' b' t'
  rw [same_line] at hl
  rw [same_quadratic] at hq
  rw [same_cubic] at hc
  rw [same_segment] at hs
  rw [same_bezier] at hb
  rw [same_scalar] at ht
  rw [hl, hq, hc, hs, hb, ht] at h
  obtain ⟨⟨l1, l2, l3⟩, ⟨q1, q2, q3, q4⟩, ⟨c1, c2, c3, c4⟩, ⟨s1, s2⟩, b1, b2, b3⟩ := h
  obtain ⟨⟨l1', l2', l3'⟩, ⟨q1', q2', q3', q4'⟩, ⟨c1', c2', c3', c4'⟩, ⟨s1', s2'⟩, b1', b2', b3'⟩ := h'
  have el := Prod.mk.inj (l2.symm.trans l2')
  have eq := Prod.mk.inj (q3.symm.trans q3')
  have ec := Prod.mk.inj (c3.symm.trans c3')
  have es := Prod.mk.inj (s2.symm.trans s2')
  refine ⟨⟨same_point.2 (l1.symm.trans l1'), ⟨same_line.2 el.1, same_line.2 el.2⟩,
      same_point.2 (l3.symm.trans l3')⟩,
    ⟨same_point.2 (q1.symm.trans q1'), same_point.2 (q2.symm.trans q2'),
      ⟨same_quadratic.2 eq.1, same_quadratic.2 eq.2⟩, same_line.2 (q4.symm.trans q4')⟩,
    ⟨same_point.2 (c1.symm.trans c1'), same_point.2 (c2.symm.trans c2'),
      ⟨same_cubic.2 ec.1, same_cubic.2 ec.2⟩, same_quadratic.2 (c4.symm.trans c4')⟩,
    ⟨same_point.2 (s1.symm.trans s1'), same_segment.2 es.1, same_segment.2 es.2⟩,
    (same_option (fun _ _ => same_point) _ _).2 (b1.symm.trans b1'),
    (same_option (f := fun h => (h.1.mapPts forgetP, h.2.mapPts forgetP)) (fun x y => ?_) _ _).2
      (b2.symm.trans b2'),
    (same_option (fun _ _ => same_bezier) _ _).2 (b3.symm.trans b3')⟩
  show (_ ∼₀ _ ∧ _ ∼₀ _) ↔ _
  rw [same_bezier, same_bezier, Prod.mk.injEq]

/-- **C107**: lengths, distances and the answers about flatness. -/
theorem C107_measures (hp : PowZero F) {l l' : LineSegment (PointN (SFl F) n)}
    {q q' : QuadraticBezier (PointN (SFl F) n)} {c c' : CubicBezier (PointN (SFl F) n)}
    {s s' : BezierSegment (PointN (SFl F) n)} {N : ℕ} {b b' : Bezier (PointN (SFl F) n) N}
    {p p' : PointN (SFl F) n} {tol tol' : SFl F} (k : ℕ) (hl : l ∼₀ l') (hq : q ∼₀ q')
    (hc : c ∼₀ c') (hs : s ∼₀ s') (hb : b ∼₀ b') (hpt : p ∼₀ p') (ht : tol ∼₀ tol') :
    (q.arclen k ∼₀ q'.arclen k ∧ c.arclen k ∼₀ c'.arclen k ∧ b.arclen k ∼₀ b'.arclen k)
    ∧ (l.distanceToPoint p ∼₀ l'.distanceToPoint p' ∧ q.distanceToPoint p ∼₀ q'.distanceToPoint p'
      ∧ c.distanceToPoint p ∼₀ c'.distanceToPoint p'
      ∧ b.distanceToPoint p ∼₀ b'.distanceToPoint p')
    ∧ (q.isAPoint tol = q'.isAPoint tol' ∧ c.isAPoint tol = c'.isAPoint tol'
      ∧ q.isLinear tol = q'.isLinear tol' ∧ c.isLinear tol = c'.isLinear tol'
      ∧ s.isLinear tol = s'.isLinear tol') := by
  have h := C107_forget_measures hp l q c s b p k tol
  have h' := C107_forget_measures hp l' q' c' s' b' p' k tol'
  rw [same_line] at hl
  rw [same_quadratic] at hq
  rw [same_cubic] at hc
  rw [same_segment] at hs
  rw [same_bezier] at hb
  rw [same_point] at hpt
  rw [same_scalar] at ht
  rw [hl, hq, hc, hs, hb, hpt, ht] at h
  obtain ⟨⟨a1, a2, a3⟩, ⟨d1, d2, d3, d4⟩, f1, f2, f3, f4, f5⟩ := h
  obtain ⟨⟨a1', a2', a3'⟩, ⟨d1', d2', d3', d4'⟩, f1', f2', f3', f4', f5'⟩ := h'
  have o : ∀ x y : Option (SFl F), x ∼₀ y ↔ x.map forget = y.map forget :=
    same_option fun _ _ => same_scalar
  exact ⟨⟨(o _ _).2 (a1.symm.trans a1'), (o _ _).2 (a2.symm.trans a2'),
      (o _ _).2 (a3.symm.trans a3')⟩,
    ⟨(o _ _).2 (d1.symm.trans d1'), (o _ _).2 (d2.symm.trans d2'), (o _ _).2 (d3.symm.trans d3'),
      (o _ _).2 (d4.symm.trans d4')⟩,
    f1.symm.trans f1', f2.symm.trans f2', f3.symm.trans f3', f4.symm.trans f4', f5.symm.trans f5'⟩

/-- **C107**: coordinates, roots and boxes. -/
theorem C107_axes (hp : PowZero F) {l l' : LineSegment (PointN (SFl F) n)}
    {q q' : QuadraticBezier (PointN (SFl F) n)} {c c' : CubicBezier (PointN (SFl F) n)}
    {t t' : SFl F} (i : ℕ) (hl : l ∼₀ l') (hq : q ∼₀ q') (hc : c ∼₀ c') (ht : t ∼₀ t') :
    (l.axis t i ∼₀ l'.axis t' i ∧ q.axis t i ∼₀ q'.axis t' i ∧ q.dd t i ∼₀ q'.dd t' i
      ∧ c.axis t i ∼₀ c'.axis t' i ∧ c.dd t i ∼₀ c'.dd t' i)
    ∧ (q.solveTForAxis t i ∼₀ q'.solveTForAxis t' i ∧ c.solveTForAxis t i ∼₀ c'.solveTForAxis t' i)
    ∧ (l.boundingBox ∼₀ l'.boundingBox ∧ q.boundingBox ∼₀ q'.boundingBox
      ∧ c.boundingBox ∼₀ c'.boundingBox) := by
  have h := C107_forget_axes hp l q c t i
  have h' := C107_forget_axes hp l' q' c' t' i
  rw [same_line] at hl
  rw [same_quadratic] at hq
  rw [same_cubic] at hc
  rw [same_scalar] at ht
  rw [hl, hq, hc, ht] at h
  obtain ⟨⟨a1, a2, a3, a4, a5⟩, ⟨d1, d2⟩, f1, f2, f3⟩ := h
  obtain ⟨⟨a1', a2', a3', a4', a5'⟩, ⟨d1', d2'⟩, f1', f2', f3'⟩ := h'
  have o : ∀ x y : Option (SFl F), x ∼₀ y ↔ x.map forget = y.map forget :=
    same_option fun _ _ => same_scalar
  have ol : ∀ x y : Option (List (SFl F)),
      x ∼₀ y ↔ x.map (List.map forget) = y.map (List.map forget) :=
    same_option (same_list fun _ _ => same_scalar)
  have ob := same_option (same_box (F := F) (k := n))
  exact ⟨⟨(o _ _).2 (a1.symm.trans a1'), (o _ _).2 (a2.symm.trans a2'),
      (o _ _).2 (a3.symm.trans a3'), (o _ _).2 (a4.symm.trans a4'), (o _ _).2 (a5.symm.trans a5')⟩,
    ⟨(ol _ _).2 (d1.symm.trans d1'), (ol _ _).2 (d2.symm.trans d2')⟩,
    (ob _ _).2 (f1.symm.trans f1'), (ob _ _).2 (f2.symm.trans f2'), (ob _ _).2 (f3.symm.trans f3')⟩

/-- **C107**: comparisons of numbers, points and curves give the same answers. -/
theorem C107_comparisons (hp : PowZero F) {x x' y y' : SFl F} {a a' b b' : PointN (SFl F) n}
    {c c' d d' : CubicBezier (PointN (SFl F) n)} {s s' r r' : BezierSegment (PointN (SFl F) n)}
    (hx : x ∼₀ x') (hy : y ∼₀ y') (ha : a ∼₀ a') (hb : b ∼₀ b') (hc : c ∼₀ c') (hd : d ∼₀ d')
    (hs : s ∼₀ s') (hr : r ∼₀ r') :
    (Scalar.lt x y = Scalar.lt x' y' ∧ Scalar.le x y = Scalar.le x' y'
      ∧ Scalar.eq x y = Scalar.eq x' y')
    ∧ Point.eq a b = Point.eq a' b' ∧ c.eq d = c'.eq d' ∧ s.eq r = s'.eq r' := by
  have h := forget_map hp
  rw [same_scalar] at hx hy
  rw [same_point] at ha hb
  rw [same_cubic] at hc hd
  rw [same_segment] at hs hr
  have l : LineSegment (PointN (SFl F) n) := ⟨a, a⟩
  have q : QuadraticBezier (PointN (SFl F) n) := ⟨a, a, a⟩
  refine ⟨⟨?_, ?_, ?_⟩, ?_, ?_, ?_⟩
  · rw [← h.lt, hx, hy, h.lt]
  · rw [← h.le, hx, hy, h.le]
  · rw [← h.eq, hx, hy, h.eq]
  · rw [← h.pEq a b, ← h.pEq a' b']
    exact congrArg₂ Point.eq ha hb
  · rw [← (h.equality l l q q c d s r).2.2.1, ← (h.equality l l q q c' d' s r).2.2.1, hc, hd]
  · rw [← (h.equality l l q q c d s r).2.2.2, ← (h.equality l l q q c' d' s' r').2.2.2, hs, hr]

/-- **C107**: B-splines. -/
theorem C107_bspline (hp : PowZero F) {K C D : ℕ} {knots knots' : Arr (SFl F) K}
    {ps ps' : Arr (PointN (SFl F) n) C} {b b' : BSpline (SFl F) (PointN (SFl F) n) K C D}
    {t t' : SFl F} (k : ℕ) (hk : knots ∼₀ knots') (hps : ps ∼₀ ps') (hb : b ∼₀ b')
    (ht : t ∼₀ t') :
    BSpline.new (D := D) knots ps ∼₀ BSpline.new (D := D) knots' ps'
      ∧ b.knotDomain ∼₀ b'.knotDomain ∧ b.eval t ∼₀ b'.eval t' ∧ b.arclen k ∼₀ b'.arclen k := by
  have h := C107_forget_bspline hp knots ps b t k
  have h' := C107_forget_bspline hp knots' ps' b' t' k
  have e1 : (fun i => (knots i).forget) = fun i => (knots' i).forget := by
    funext i; exact same_scalar.1 (hk i)
  have e2 : (fun i => forgetP (ps i)) = fun i => forgetP (ps' i) := by
    funext i; exact same_point.1 (hps i)
  rw [same_bspline] at hb
  rw [same_scalar] at ht
  rw [e1, e2, hb, ht] at h
  refine ⟨(same_outcome (fun _ _ => same_bspline) _ _).2 (h.1.symm.trans h'.1),
    (same_option (f := fun d => (d.1.forget, d.2.forget)) (fun x y => ?_) _ _).2
      (h.2.1.symm.trans h'.2.1),
    (same_outcome (fun _ _ => same_point) _ _).2 (h.2.2.1.symm.trans h'.2.2.1),
    (same_option (fun _ _ => same_scalar) _ _).2 (h.2.2.2.symm.trans h'.2.2.2)⟩
  show (_ ∼₀ _ ∧ _ ∼₀ _) ↔ _
  rw [same_scalar, same_scalar, Prod.mk.injEq]

/-! ### The derivative of a B-spline -/

theorem sub_ne (hg : GradualUnderflow F) {x y : SFl F} (hx : x ≠ zero true) : x - y ≠ zero true := by
  show add x (neg y) ≠ _
  cases x with
  | nan => simp [add]
  | inf s =>
    cases y with
    | inf s' => simp only [neg, add]; split <;> simp
    | _ => simp [neg, add]
  | zero s =>
    have : s = false := by
      cases s
      · rfl
      · exact absurd rfl hx
    subst this
    cases y <;> simp [neg, add]
  | fin a ha ha0 =>
    cases y with
    | nan => simp [neg, add]
    | inf s => simp [neg, add]
    | zero s => simp [neg, add]
    | fin b hb hb0 =>
      simp only [neg, add, ← sub_eq_add_neg]
      by_cases e : a = b
      · rw [e, sub_self]
        exact round_ne le_rfl
      · have := hg a ha.1 b hb.1 e
        unfold SFl.round
        rw [dif_neg this]
        split_ifs <;> simp

theorem forget_derivative (hp : PowZero F) (hg : GradualUnderflow F) {K C D : ℕ}
    (b : BSpline (SFl F) (PointN (SFl F) n) K C D) (hk : ∀ i, b.knots i ≠ zero true) :
    (b.mapC forget).derivative = b.derivative.map (BSpline.mapC forget) := by
  refine (forget_map hp).bsplineDerivative b fun i kr kl h1 _ x => forget_div _ _ (sub_ne hg ?_)
  unfold Arr.get? at h1
  split at h1
  · cases h1; exact hk _
  · cases h1

/-- **C107**: the derivative of a B-spline does not depend on the signs of zeros in its control
points, if none of the knots is -0. -/
theorem C107_derivative_partial (hp : PowZero F) (hg : GradualUnderflow F) {K C D : ℕ}
    {b b' : BSpline (SFl F) (PointN (SFl F) n) K C D} (hb : b ∼₀ b')
    (hk : ∀ i, b.knots i ≠ zero true) (hk' : ∀ i, b'.knots i ≠ zero true) :
    b.derivative ∼₀ b'.derivative := by
  rw [same_option (fun _ _ => same_bspline), ← forget_derivative hp hg b hk,
    ← forget_derivative hp hg b' hk', same_bspline.1 hb]

/-- The straight B-spline from 0 to 1 on the line with the knots 0, 0, ±0, 1. -/
noncomputable def zeroKnots (F : FloatFormat) (s : Bool) : BSpline (SFl F) (PointN (SFl F) 1) 4 2 1 :=
  ⟨![lit 0, lit 0, .zero s, lit 1], .ClampedStart, ![⟨fun _ => lit 0⟩, ⟨fun _ => lit 1⟩]⟩

/-- The full claim of C107 is false of `BSpline::derivative`: it divides by the difference of two
knots without a check, and with -0 among the knots the infinity it returns has the other sign. -/
theorem C107_derivative_false :
    (∀ s, BSpline.new (D := 1) (zeroKnots F s).knots (zeroKnots F s).control_points
        = .ok (zeroKnots F s))
    ∧ zeroKnots F false ∼₀ zeroKnots F true
    ∧ (∀ s, ∃ d, (zeroKnots F s).derivative = some d
        ∧ (d.control_points 0).coords 0 = .inf s)
    ∧ ¬ (zeroKnots F false).derivative ∼₀ (zeroKnots F true).derivative := by
  have l0 : (lit 0 : SFl F) = .zero false := by
    show SFl.round F _ = _
    unfold SFl.round
    rw [dif_pos (by rw [Rat.cast_zero]; exact F.rnd_of_mem 0 F.zero_ok.1)]
    simp
  have l1 : (lit 1 : SFl F) = .fin 1 F.one_ok one_ne_zero := by
    show SFl.round F _ = _
    unfold SFl.round
    have e : F.rnd ((1 : ℚ) : ℝ) = 1 := by rw [Rat.cast_one]; exact F.rnd_of_mem 1 F.one_ok.1
    rw [dif_neg (by rw [e]; exact one_ne_zero), dif_pos (by rw [e]; exact F.one_ok.2)]
    simp only [e]
  have u1 : (Scalar.ofUsize 1 : SFl F) = .fin 1 F.one_ok one_ne_zero := by
    rw [← l1]
    show SFl.round F _ = SFl.round F _
    simp
  have hd : ∀ s, ∃ d, (zeroKnots F s).derivative = some d
      ∧ (d.control_points 0).coords 0 = .inf s := by
    intro s
    refine ⟨⟨(zeroKnots F s).knots, (zeroKnots F s).knot_kind, fun _ =>
      ((zeroKnots F s).control_points 1 - (zeroKnots F s).control_points 0)
        * (Scalar.ofUsize 1 / (.zero s - lit 0) : SFl F)⟩, ?_, ?_⟩
    · unfold BSpline.derivative
      simp only []
      rw [forBreak_fill (n := 1) (m := 2) (v := fun _ =>
        ((zeroKnots F s).control_points 1 - (zeroKnots F s).control_points 0)
          * (Scalar.ofUsize 1 / (.zero s - lit 0) : SFl F)) _ _ le_rfl (by norm_num)]
      · rfl
      · intro i hi a
        have : i = 0 := by omega
        subst this
        show some _ = some _
        rfl
    · show (lit 1 - lit 0) * (Scalar.ofUsize 1 / (SFl.zero s - lit 0)) = (.inf s : SFl F)
      rw [l0, l1, u1]
      show mul (add _ (neg (SFl.zero false))) (div _ (add (SFl.zero s) (neg (SFl.zero false)))) = _
      simp only [neg, add, Bool.not_false, Bool.and_true, div, mul]
      rw [decide_eq_false (by norm_num)]
      simp
  refine ⟨?_, ?_, hd, ?_⟩
  · intro s
    have f0 : ∀ s, (.zero s : SFl F).forget = .fin 0 F.zero_ok := forget_zero
    have f1 : (lit 1 : SFl F).forget = .fin 1 F.one_ok := by rw [l1]; rfl
    have fe : (Scalar.epsilon : SFl F).forget = .fin F.epsilon F.epsilon_ok :=
      (forget_round _).trans Fl.epsilon_eq
    have lt' : ∀ x y : SFl F, Scalar.lt x y = Scalar.lt x.forget y.forget := fun _ _ => rfl
    have z : Scalar.abs (.zero false - .zero false : SFl F) = .zero false := rfl
    have a1 : Scalar.lt (Scalar.abs (lit 0 - lit 0 : SFl F)) Scalar.epsilon = true := by
      rw [l0, z, lt', f0, fe, Fl.lt_fin]
      exact F.epsilon_pos
    have a2 : Scalar.lt (Scalar.abs (.zero s - lit 1 : SFl F)) Scalar.epsilon = false := by
      rw [Bool.eq_false_iff, ne_eq, lt', forget_abs, forget_sub, f0, f1, fe]
      intro h
      rw [show (.fin 0 F.zero_ok - .fin 1 F.one_ok : Fl F) = - .fin 1 F.one_ok from ?_] at h
      · have h' : Scalar.lt (.fin |-1| _ : Fl F) (.fin F.epsilon F.epsilon_ok) = true := h
        rw [Fl.lt_fin, abs_neg, abs_one] at h'
        linarith [F.epsilon_le]
      · show F.round (0 + -1) = .fin (-1) _
        rw [zero_add]
        exact F.round_of_mem _
    have b1 : Scalar.lt (lit 0 : SFl F) (lit 0) = false := by
      rw [Bool.eq_false_iff, ne_eq, l0, lt', f0, Fl.lt_fin]; exact lt_irrefl _
    have b2 : Scalar.lt (.zero s : SFl F) (lit 0) = false := by
      rw [Bool.eq_false_iff, ne_eq, l0, lt', f0, f0, Fl.lt_fin]; exact lt_irrefl _
    have b3 : Scalar.lt (lit 1 : SFl F) (.zero s) = false := by
      rw [Bool.eq_false_iff, ne_eq, lt', f0, f1, Fl.lt_fin]; norm_num
    have el : Arr.toList (zeroKnots F s).knots = [lit 0, lit 0, .zero s, lit 1] := rfl
    unfold BSpline.new
    rw [if_neg (by norm_num), if_neg (by norm_num), if_neg (by norm_num), el]
    simp only [anyDecrease, b1, b2, b3, Bool.or_self, Bool.false_eq_true, if_false]
    show Outcome.ok _ = _
    simp only [List.take, List.drop, List.all_cons, List.all_nil, Bool.and_true]
    rw [show (zeroKnots F s).knots (⟨0, by norm_num⟩ : Fin 4) = lit 0 from rfl,
      show (zeroKnots F s).knots (⟨3, by norm_num⟩ : Fin 4) = lit 1 from rfl]
    simp only [a1, a2, Bool.and_self, Bool.false_and]
    rfl
  · refine ⟨fun i => ?_, rfl, fun i => same_point.2 rfl⟩
    fin_cases i
    · exact Or.inl rfl
    · exact Or.inl rfl
    · exact Or.inr ⟨_, _, rfl, rfl⟩
    · exact Or.inl rfl
  · obtain ⟨d, e, h⟩ := hd false
    obtain ⟨d', e', h'⟩ := hd true
    rw [e, e']
    intro hs
    have := same_scalar.1 (hs.2.2 0 0)
    rw [h, h'] at this
    simp [forget_inf] at this

/-! ### The hypotheses hold of the IEEE formats -/

/-- The IEEE formats have gradual underflow. -/
theorem ieee_gradual (p : ℕ) (emin : ℤ) (emax : ℕ) (hp : 11 ≤ p) (he : emin ≤ 1 - p)
    (cosI acosI : ℝ → ℝ) (powI : ℝ → ℝ → ℝ) :
    GradualUnderflow (ieee p emin emax hp he cosI acosI powI) := by
  have key : ∀ a ∈ ieeeGrid p emin, ∀ b ∈ ieeeGrid p emin, b < a → 0 < ieeeRnd p emin (a - b) := by
    rintro a ⟨m, e, _, he1, rfl⟩ b ⟨m', e', _, he2, rfl⟩ hab
    have h2 : (0 : ℝ) < 2 ^ emin := by positivity
    have hs : ∀ (m e : ℤ), emin ≤ e → (m : ℝ) * 2 ^ e = ((m * 2 ^ (e - emin).toNat : ℤ) : ℝ) * 2 ^ emin := by
      intro m e h
      have : (2 : ℝ) ^ e = 2 ^ ((e - emin).toNat : ℤ) * 2 ^ emin := by
        rw [← zpow_add₀ (by norm_num)]; congr 1; omega
      rw [this, zpow_natCast]; push_cast; ring
    rw [hs m e he1, hs m' e' he2] at hab ⊢
    generalize m * 2 ^ (e - emin).toNat = k at hab ⊢
    generalize m' * 2 ^ (e' - emin).toNat = k' at hab ⊢
    have hk : k' < k := by
      have := lt_of_mul_lt_mul_right hab h2.le
      exact_mod_cast this
    have hge : (2 : ℝ) ^ emin ≤ (k : ℝ) * 2 ^ emin - (k' : ℝ) * 2 ^ emin := by
      have : (1 : ℝ) ≤ k - k' := by exact_mod_cast (by omega : (1 : ℤ) ≤ k - k')
      nlinarith
    have hm : (2 : ℝ) ^ emin ∈ ieeeGrid p emin :=
      ⟨1, emin, by rw [abs_one]; exact one_le_pow₀ (by norm_num), le_rfl, by simp⟩
    have := ieeeRnd_mono (p := p) (emin := emin) (by omega) hge
    rw [ieeeRnd_of_mem (by omega) _ hm] at this
    linarith
  intro a ha b hb hab
  show ieeeRnd p emin (a - b) ≠ 0
  rcases lt_or_gt_of_ne hab with h | h
  · have := key b hb a ha h
    rw [← neg_sub, ieeeRnd_neg]
    exact neg_ne_zero.2 this.ne'
  · exact (key a ha b hb h).ne'

/-- In the IEEE formats the rounded 1/3 is positive, so that every `powf` with `powf(0, y) = 0` for
positive `y`, as the C standard requires, will do. -/
theorem ieee_powZero (p : ℕ) (emin : ℤ) (emax : ℕ) (hp : 11 ≤ p) (he : emin ≤ 1 - p)
    (cosI acosI : ℝ → ℝ) (powI : ℝ → ℝ → ℝ) (h0 : ∀ y, 0 < y → powI 0 y = 0) :
    PowZero (ieee p emin emax hp he cosI acosI powI) := by
  apply h0
  have hm : (1 / 4 : ℝ) ∈ ieeeGrid p emin :=
    ⟨1, -2, by rw [abs_one]; exact one_le_pow₀ (by norm_num), by omega, by norm_num⟩
  have := ieeeRnd_mono (p := p) (emin := emin) (by omega) (show (1 / 4 : ℝ) ≤ 1 / 3 by norm_num)
  rw [ieeeRnd_of_mem (by omega) _ hm] at this
  show 0 < ieeeRnd p emin (1 / 3)
  linarith

/-- The hypotheses of C107 hold of binary64 with the real power function. -/
example : PowZero (binary64 Real.cos Real.arccos fun x y => x ^ y)
    ∧ GradualUnderflow (binary64 Real.cos Real.arccos fun x y => x ^ y) :=
  ⟨ieee_powZero _ _ _ _ _ _ _ _ fun _ h => Real.zero_rpow h.ne', ieee_gradual _ _ _ _ _ _ _ _⟩

/-- `C107_derivative_partial` for two splines with the knots 0, 0, 1, 1 whose control points are
zeros of different signs. -/
example {G : FloatFormat} (hp : PowZero G) (hg : GradualUnderflow G) :
    let one : SFl G := SFl.fin 1 G.one_ok one_ne_zero
    let b : Bool → BSpline (SFl G) (PointN (SFl G) 1) 4 2 1 := fun s =>
      { knots := ![SFl.zero false, SFl.zero false, one, one]
        knot_kind := .Clamped
        control_points := ![⟨fun _ => SFl.zero s⟩, ⟨fun _ => one⟩] }
    b true ≠ b false ∧ (b true).derivative ∼₀ (b false).derivative := by
  intro one b
  refine ⟨fun h => ?_, C107_derivative_partial hp hg ?_ ?_ ?_⟩
  · have := congrArg (fun x => (x.control_points 0).coords 0) h
    simp [b] at this
  · refine ⟨fun i => Or.inl rfl, rfl, fun i => ?_⟩
    fin_cases i
    · exact fun _ => Or.inr ⟨_, _, rfl, rfl⟩
    · exact fun _ => Or.inl rfl
  all_goals
    intro i
    fin_cases i <;> simp [b, one]

/-- The relation is not equality, sums of zeros depend on the signs, and division tells the zeros
apart. -/
example : (SFl.zero true : SFl F) ∼₀ SFl.zero false ∧ (SFl.zero true : SFl F) ≠ SFl.zero false
    ∧ (SFl.zero true + SFl.zero true : SFl F) = SFl.zero true
    ∧ (SFl.zero false + SFl.zero true : SFl F) = SFl.zero false
    ∧ (SFl.fin 1 F.one_ok one_ne_zero / SFl.zero true : SFl F) = SFl.inf true
    ∧ (SFl.fin 1 F.one_ok one_ne_zero / SFl.zero false : SFl F) = SFl.inf false := by
  refine ⟨Or.inr ⟨_, _, rfl, rfl⟩, by simp, rfl, rfl, ?_, ?_⟩
  · show div _ _ = _
    simp only [div]
    rw [decide_eq_false (by norm_num)]; rfl
  · show div _ _ = _
    simp only [div]
    rw [decide_eq_false (by norm_num)]; rfl

end

end Stroke
