import Verif.Props.Subdivision
import Verif.Props.FloatHull
import Verif.Props.FloatLine
import Verif.Props.FloatBoxContains
import Mathlib.Analysis.SpecificLimits.Basic

/-!
# Flattening a curve in floating point (C110)

The program of C66 — split at 1/2, recursively, until `is_linear(tol)` or `is_a_point(tol)` holds —
run in floating point. It stops if the tolerance is not smaller than a few rounding errors of the
coordinates, and the polyline it returns is then as close to the exact curve as the tolerance says,
up to rounding errors. With smaller tolerances it may run for ever.
-/

set_option linter.unusedSectionVars false

namespace Stroke

open Fl

/-! ### The program -/

section Client
variable {S P : Type} [Scalar S] [Point S P]

/-- `|q| q.split(h)`, with `h` = 0.5. -/
def QuadraticBezier.halveAt (h : S) (q : QuadraticBezier P) :
    QuadraticBezier P × QuadraticBezier P := q.split h

/-- `|q| q.is_linear(tol) || q.is_a_point(tol)`. -/
def QuadraticBezier.flatEnough (tol : S) (q : QuadraticBezier P) : Bool :=
  (q.isLinear tol == some true) || q.isAPoint tol

/-- `|c| c.split(h)`, with `h` = 0.5. -/
def CubicBezier.halveAt (h : S) (c : CubicBezier P) : CubicBezier P × CubicBezier P := c.split h

/-- `|c| c.is_linear(tol) || c.is_a_point(tol)`. -/
def CubicBezier.flatEnough (tol : S) (c : CubicBezier P) : Bool :=
  (c.isLinear tol == some true) || c.isAPoint tol

end Client

/-! ### General facts -/

section General
variable {Q ι : Type} {split : Q → Q × Q} {stop : Q → Bool} {ok : Q → Prop}

/-- An invariant of both halves holds for all pieces. -/
theorem adaptive_inv (hok : ∀ q, ok q → ok (split q).1 ∧ ok (split q).2) (k : ℕ) :
    ∀ q, ok q → ∀ p ∈ adaptive split stop k q, ok p := by
  induction k with
  | zero => intro q hq p hp; simp only [adaptive, List.mem_singleton] at hp; rw [hp]; exact hq
  | succ k ih =>
    intro q hq p hp
    rw [adaptive] at hp
    split_ifs at hp
    · simp only [List.mem_singleton] at hp; rw [hp]; exact hq
    · rw [List.mem_append] at hp
      rcases hp with hp | hp
      · exact ih _ (hok q hq).1 p hp
      · exact ih _ (hok q hq).2 p hp

/-- Sizes that halve up to `E` in every round. -/
theorem pieces_shrink {size : ℝ → Q → Prop} {E : ℝ}
    (hok : ∀ q, ok q → ok (split q).1 ∧ ok (split q).2)
    (hs : ∀ q D, ok q → size D q → size (D / 2 + E) (split q).1 ∧ size (D / 2 + E) (split q).2)
    (k : ℕ) : ∀ q D, ok q → size D q → ∀ p ∈ pieces split k q,
      ok p ∧ size (D / 2 ^ k + 2 * E * (1 - 1 / 2 ^ k)) p := by
  induction k with
  | zero =>
    intro q D hq hD p hp
    simp only [pieces, List.mem_singleton] at hp
    rw [hp]
    refine ⟨hq, ?_⟩
    have : D / 2 ^ 0 + 2 * E * (1 - 1 / 2 ^ 0) = D := by norm_num
    rw [this]; exact hD
  | succ k ih =>
    intro q D hq hD p hp
    have e : (D / 2 + E) / 2 ^ k + 2 * E * (1 - 1 / 2 ^ k)
        = D / 2 ^ (k + 1) + 2 * E * (1 - 1 / 2 ^ (k + 1)) := by
      rw [pow_succ]; field_simp; ring
    rw [pieces, List.mem_append] at hp
    rw [← e]
    rcases hp with hp | hp
    · exact ih _ _ (hok q hq).1 (hs q D hq hD).1 p hp
    · exact ih _ _ (hok q hq).2 (hs q D hq hD).2 p hp

/-- A program that has stopped at depth `k` gives the same pieces if more depth is allowed. -/
theorem adaptive_stable (k m : ℕ) : ∀ q : Q, (∀ p ∈ adaptive split stop k q, stop p = true) →
    adaptive split stop (k + m) q = adaptive split stop k q := by
  induction k with
  | zero =>
    intro q h
    have hq : stop q = true := h q (by simp [adaptive])
    cases m with
    | zero => rfl
    | succ m => rw [Nat.zero_add, adaptive.eq_2, if_pos hq, adaptive.eq_1]
  | succ k ih =>
    intro q h
    rw [Nat.succ_add, adaptive, adaptive]
    split_ifs with hs
    · rfl
    · rw [adaptive, if_neg hs] at h
      rw [ih _ fun p hp => h p (List.mem_append.2 (Or.inl hp)),
        ih _ fun p hp => h p (List.mem_append.2 (Or.inr hp))]

variable {ex : Q → ι → ℝ → ℝ} {E : ℝ}

/-- Every point of the curve is near a point of one of the pieces. -/
theorem adaptive_near (E0 : 0 ≤ E) (hok : ∀ q, ok q → ok (split q).1 ∧ ok (split q).2)
    (he : ∀ q, ok q → ∀ i s, 0 ≤ s → s ≤ 1 → |ex (split q).1 i s - ex q i (s / 2)| ≤ E ∧
      |ex (split q).2 i s - ex q i ((1 + s) / 2)| ≤ E) (k : ℕ) :
    ∀ q, ok q → ∀ t, 0 ≤ t → t ≤ 1 → ∃ p ∈ adaptive split stop k q, ∃ s, 0 ≤ s ∧ s ≤ 1 ∧
      ∀ i, |ex p i s - ex q i t| ≤ k * E := by
  induction k with
  | zero =>
    intro q _ t t0 t1
    exact ⟨q, by simp [adaptive], t, t0, t1, fun i => by simp⟩
  | succ k ih =>
    intro q hq t t0 t1
    have far : ∀ a b c : ℝ, |a - b| ≤ k * E → |b - c| ≤ E → |a - c| ≤ (k + 1 : ℕ) * E := by
      intro a b c h1 h2
      have := abs_add_le (a - b) (b - c)
      rw [sub_add_sub_cancel] at this
      push_cast
      linarith
    rw [adaptive]
    split_ifs
    · exact ⟨q, by simp, t, t0, t1, fun i => by rw [sub_self, abs_zero]; positivity⟩
    · rcases le_total t (1 / 2) with hle | hle
      · obtain ⟨p, hp, s, s0, s1, e⟩ := ih _ (hok q hq).1 (2 * t) (by linarith) (by linarith)
        refine ⟨p, List.mem_append.2 (Or.inl hp), s, s0, s1, fun i => far _ _ _ (e i) ?_⟩
        have := (he q hq i (2 * t) (by linarith) (by linarith)).1
        rwa [show 2 * t / 2 = t by ring] at this
      · obtain ⟨p, hp, s, s0, s1, e⟩ := ih _ (hok q hq).2 (2 * t - 1) (by linarith) (by linarith)
        refine ⟨p, List.mem_append.2 (Or.inr hp), s, s0, s1, fun i => far _ _ _ (e i) ?_⟩
        have := (he q hq i (2 * t - 1) (by linarith) (by linarith)).2
        rwa [show (1 + (2 * t - 1)) / 2 = t by ring] at this

/-- Every piece is near a part of the curve. -/
theorem adaptive_part_near (E0 : 0 ≤ E) (hok : ∀ q, ok q → ok (split q).1 ∧ ok (split q).2)
    (he : ∀ q, ok q → ∀ i s, 0 ≤ s → s ≤ 1 → |ex (split q).1 i s - ex q i (s / 2)| ≤ E ∧
      |ex (split q).2 i s - ex q i ((1 + s) / 2)| ≤ E) (k : ℕ) :
    ∀ q, ok q → ∀ p ∈ adaptive split stop k q, ∃ a b : ℝ, 0 ≤ a ∧ a < b ∧ b ≤ 1 ∧
      ∀ i s, 0 ≤ s → s ≤ 1 → |ex p i s - ex q i (a + (b - a) * s)| ≤ k * E := by
  have base : ∀ (k : ℕ) (q : Q), ∃ a b : ℝ, 0 ≤ a ∧ a < b ∧ b ≤ 1 ∧
      ∀ i s, 0 ≤ s → s ≤ 1 → |ex q i s - ex q i (a + (b - a) * s)| ≤ k * E := fun k q =>
    ⟨0, 1, le_rfl, one_pos, le_rfl, fun i s _ _ => by
      rw [show (0 : ℝ) + (1 - 0) * s = s by ring, sub_self, abs_zero]; positivity⟩
  induction k with
  | zero =>
    intro q _ p hp
    simp only [adaptive, List.mem_singleton] at hp
    subst hp
    exact base 0 p
  | succ k ih =>
    intro q hq p hp
    have far : ∀ a b c : ℝ, |a - b| ≤ k * E → |b - c| ≤ E → |a - c| ≤ (k + 1 : ℕ) * E := by
      intro a b c h1 h2
      have := abs_add_le (a - b) (b - c)
      rw [sub_add_sub_cancel] at this
      push_cast
      linarith
    rw [adaptive] at hp
    split_ifs at hp
    · simp only [List.mem_singleton] at hp
      subst hp
      exact base _ p
    · rw [List.mem_append] at hp
      rcases hp with hp | hp
      · obtain ⟨a, b, ha, hab, hb, e⟩ := ih _ (hok q hq).1 p hp
        refine ⟨a / 2, b / 2, by linarith, by linarith, by linarith, fun i s s0 s1 => ?_⟩
        have m0 : 0 ≤ (b - a) * s := mul_nonneg (by linarith) s0
        have m1 : (b - a) * s ≤ b - a := mul_le_of_le_one_right (by linarith) s1
        have := (he q hq i (a + (b - a) * s) (by linarith) (by linarith)).1
        rw [show (a + (b - a) * s) / 2 = a / 2 + (b / 2 - a / 2) * s by ring] at this
        exact far _ _ _ (e i s s0 s1) this
      · obtain ⟨a, b, ha, hab, hb, e⟩ := ih _ (hok q hq).2 p hp
        refine ⟨(1 + a) / 2, (1 + b) / 2, by linarith, by linarith, by linarith,
          fun i s s0 s1 => ?_⟩
        have m0 : 0 ≤ (b - a) * s := mul_nonneg (by linarith) s0
        have m1 : (b - a) * s ≤ b - a := mul_le_of_le_one_right (by linarith) s1
        have := (he q hq i (a + (b - a) * s) (by linarith) (by linarith)).2
        rw [show (1 + (a + (b - a) * s)) / 2
          = (1 + a) / 2 + ((1 + b) / 2 - (1 + a) / 2) * s by ring] at this
        exact far _ _ _ (e i s s0 s1) this

end General

variable {F : FloatFormat} {n : ℕ}

/-! ### When `is_a_point` passes -/

/-- Two points whose coordinates differ by at most `D` pass the test of `is_a_point`. -/
theorem close_passes (p q : PointN (Fl F) n) (tol : Fl F) {D M : ℝ} (hu : F.u ≤ 1 / 1024)
    (he : F.eta ≤ 1 / 1024) (hn : (n + 3 : ℕ) * F.u ≤ 1 / 4) (hp : BoundedBy M p)
    (hq : BoundedBy M q) (hM : 2 * M ≤ F.max)
    (hD : ∀ i, |(p.coords i).toReal - (q.coords i).toReal| ≤ D)
    (htf : tol.IsFinite) (htm : tol.toReal ^ 2 ≤ F.max)
    (ht : 3 * n * D ^ 2 + 3 * n * F.eta ≤ tol.toReal ^ 2) :
    Scalar.le (Point.squaredLength (p - q) : Fl F) (tol * tol) = true := by
  have u0 := F.u_nonneg
  have e0 := F.eta_nonneg
  obtain ⟨b, hb, rfl⟩ := isFinite_iff.1 htf
  simp only [toReal_fin] at htm ht
  have key : ∀ i, ((p - q).coords i).IsFinite ∧
      ((p - q).coords i).toReal ^ 2 ≤ 17 / 8 * D ^ 2 + 1 / 256 * F.eta := by
    intro i
    obtain ⟨a, ha, ea⟩ := isFinite_iff.1 (hp i).1
    obtain ⟨c, hc, ec⟩ := isFinite_iff.1 (hq i).1
    have h1 := (hp i).2
    have h2 := (hq i).2
    have h3 := hD i
    rw [ea] at h1 h3
    rw [ec] at h2 h3
    simp only [toReal_fin] at h1 h2 h3
    have e : (p - q).coords i = F.round (a - c) := by
      show p.coords i - q.coords i = _
      rw [ea, ec, fin_sub]
    have hm : |a - c| ≤ F.max := by
      have := abs_sub a c
      linarith
    rw [e, F.round_of_le hm]
    refine ⟨trivial, ?_⟩
    rw [toReal_fin]
    have h4 := F.rnd_err (a - c)
    have D0 : 0 ≤ D := (abs_nonneg _).trans h3
    have h5 : |F.rnd (a - c)| ≤ (1 + F.u) * D + F.eta := by
      have := abs_add_le (F.rnd (a - c) - (a - c)) (a - c)
      rw [sub_add_cancel] at this
      have := mul_le_mul_of_nonneg_left h3 u0
      linarith
    have h6 : F.rnd (a - c) ^ 2 ≤ ((1 + F.u) * D + F.eta) ^ 2 := by
      rw [← sq_abs]
      exact pow_le_pow_left₀ (abs_nonneg _) h5 2
    have h7 : (1 + F.u) * D ≤ 1025 / 1024 * D := mul_le_mul_of_nonneg_right (by linarith) D0
    have h8 : ((1 + F.u) * D + F.eta) ^ 2 ≤ (1025 / 1024 * D + F.eta) ^ 2 :=
      pow_le_pow_left₀ (by positivity) (by linarith) 2
    have h9 : (1025 / 1024 * D + F.eta) ^ 2 ≤ 2 * (1025 / 1024 * D) ^ 2 + 2 * F.eta ^ 2 := by
      nlinarith [sq_nonneg (1025 / 1024 * D - F.eta)]
    nlinarith [sq_nonneg D]
  have hsum : ∑ i, ((p - q).coords i).toReal ^ 2 ≤ n * (17 / 8 * D ^ 2 + 1 / 256 * F.eta) := by
    calc ∑ i, ((p - q).coords i).toReal ^ 2
        ≤ ∑ _i : Fin n, (17 / 8 * D ^ 2 + 1 / 256 * F.eta) :=
          Finset.sum_le_sum fun i _ => (key i).2
      _ = _ := by rw [Finset.sum_const, Finset.card_univ, Fintype.card_fin, nsmul_eq_mul]
  have hs0 : 0 ≤ ∑ i, ((p - q).coords i).toReal ^ 2 :=
    Finset.sum_nonneg fun i _ => sq_nonneg _
  have pw : ∀ m : ℕ, m ≤ n + 3 → (1 + F.u) ^ m ≤ 4 / 3 := by
    intro m hm
    have h1 := pow_bound hu m
    have h2 : (m : ℝ) * F.u ≤ 1 / 4 := by
      refine le_trans ?_ hn
      exact mul_le_mul_of_nonneg_right (by exact_mod_cast hm) u0
    have h3 : 0 ≤ (1 + F.u) ^ m := by positivity
    nlinarith
  have n0 : (0 : ℝ) ≤ n := Nat.cast_nonneg n
  have nD : 0 ≤ n * D ^ 2 := by positivity
  have nE : 0 ≤ n * F.eta := by positivity
  have a1 : (1 + F.u) ^ (n + 1) * ∑ i, ((p - q).coords i).toReal ^ 2
      ≤ 4 / 3 * (n * (17 / 8 * D ^ 2 + 1 / 256 * F.eta)) :=
    mul_le_mul (pw _ (by omega)) hsum hs0 (by norm_num)
  have a2 : 2 * n * (1 + F.u) ^ n * F.eta ≤ 8 / 3 * (n * F.eta) := by
    have := mul_le_mul_of_nonneg_right (pw n (by omega)) nE
    linarith
  have total : (1 + F.u) ^ (n + 1) * ∑ i, ((p - q).coords i).toReal ^ 2
        + 2 * n * (1 + F.u) ^ n * F.eta ≤ b ^ 2 := by
    refine le_trans ?_ ht
    nlinarith
  obtain ⟨fs, s0, es⟩ := C88_squared_length (p - q) (Or.inr ⟨fun i => (key i).1, total.trans htm⟩)
  obtain ⟨s, hs, e⟩ := isFinite_iff.1 fs
  rw [e, toReal_fin] at es
  rw [e, fin_mul, F.round_of_le (by rw [← sq, abs_of_nonneg (sq_nonneg b)]; exact htm), le_fin,
    ← F.rnd_of_mem s hs.1]
  apply F.rnd_mono
  have := (abs_le.1 es).2
  rw [← sq]
  linarith

/-! ### Quadratic curves -/

/-- All control coordinates are finite and at most `M` in magnitude. -/
def QuadraticBezier.Within (M : ℝ) (q : QuadraticBezier (PointN (Fl F) n)) : Prop :=
  BoundedBy M q.start ∧ BoundedBy M q.ctrl ∧ BoundedBy M q.end_

/-- Neighbouring control coordinates differ by at most `D`. -/
def QuadraticBezier.Legs (D : ℝ) (q : QuadraticBezier (PointN (Fl F) n)) : Prop :=
  ∀ i, |(q.start.coords i).toReal - (q.ctrl.coords i).toReal| ≤ D ∧
    |(q.ctrl.coords i).toReal - (q.end_.coords i).toReal| ≤ D

theorem insideBox_iff {M : ℝ} {p : PointN (Fl F) n} :
    InsideBox (fun _ => -M) (fun _ => M) p ↔ BoundedBy M p := by
  unfold InsideBox BoundedBy Between
  simp only [abs_le]

/-- What is assumed of the format and of the size of the coordinates: the format is precise
enough for the dimension, it rounds steps between floats as the IEEE formats do, it contains 1/2,
and the coordinates are not close to overflow. -/
structure FlattenFormat (F : FloatFormat) (n : ℕ) (M : ℝ) : Prop where
  steps : F.ShortSteps
  u : F.u ≤ 1 / 1024
  eta : F.eta ≤ 1 / 1024
  dim : (n + 3 : ℕ) * F.u ≤ 1 / 4
  half : (1 / 2 : ℝ) ∈ F.grid ∧ |(1 / 2 : ℝ)| ≤ F.max
  nonneg : 0 ≤ M
  max : 3 * M + 2 ≤ F.max

theorem half_unit (half : (1 / 2 : ℝ) ∈ F.grid ∧ |(1 / 2 : ℝ)| ≤ F.max) :
    UnitParam (fin (1 / 2) half : Fl F) := by
  refine ⟨?_, ?_⟩
  · rw [lit_zero]; exact le_fin.2 (by norm_num)
  · rw [lit_one]; exact lt_fin.2 (by norm_num)

theorem QuadraticBezier.halve_within {M : ℝ} (hF : FlattenFormat F n M)
    (q : QuadraticBezier (PointN (Fl F) n)) (hq : q.Within M) :
    (q.halveAt (fin (1 / 2) hF.half)).1.Within M ∧
    (q.halveAt (fin (1 / 2) hF.half)).2.Within M := by
  obtain ⟨h1, h2, h3⟩ := hq
  have h := C108_quadratic hF.steps q (fun _ => -M) (fun _ => M)
    (fun _ => by linarith [hF.max, hF.nonneg]) (by
      simp only [QuadraticBezier.controlPoints, List.mem_cons, List.not_mem_nil, or_false,
        forall_eq_or_imp, forall_eq, insideBox_iff]
      exact ⟨h1, h2, h3⟩) (half_unit hF.half)
  simp only [QuadraticBezier.controlPoints, List.mem_cons, List.not_mem_nil, or_false,
    forall_eq_or_imp, forall_eq, insideBox_iff] at h
  exact h.2

theorem QuadraticBezier.halve_legs {M D : ℝ} (hF : FlattenFormat F n M)
    (q : QuadraticBezier (PointN (Fl F) n)) (hq : q.Within M) (hD : q.Legs D) :
    (q.halveAt (fin (1 / 2) hF.half)).1.Legs (D / 2 + (19 * F.u * M + 13 * F.eta)) ∧
    (q.halveAt (fin (1 / 2) hF.half)).2.Legs (D / 2 + (19 * F.u * M + 13 * F.eta)) := by
  obtain ⟨h1, h2, h3⟩ := hq
  have e0 := F.eta_nonneg
  have uM : 0 ≤ F.u * M := mul_nonneg F.u_nonneg hF.nonneg
  have hM := hF.nonneg
  have hmax := hF.max
  have a1 := fun i => (C67_line_eval ⟨q.start, q.ctrl⟩ hF.half (by norm_num) (by norm_num) hF.u
    hF.eta h1 h2 (by linarith) i).2
  have a2 := fun i => (C67_line_eval ⟨q.ctrl, q.end_⟩ hF.half (by norm_num) (by norm_num) hF.u
    hF.eta h2 h3 (by linarith) i).2
  have a3 := fun i => (C67_quadratic_casteljau q hF.half (by norm_num) (by norm_num) hF.u
    hF.eta h1 h2 h3 hmax i).2
  constructor
  · intro i
    have b1 := a1 i
    have b3 := a3 i
    obtain ⟨d1, d2⟩ := hD i
    change |(((q.halveAt (fin (1 / 2) hF.half)).1.ctrl).coords i).toReal - _| ≤ _ at b1
    change |(((q.halveAt (fin (1 / 2) hF.half)).1.end_).coords i).toReal - _| ≤ _ at b3
    change |(q.start.coords i).toReal - _| ≤ _ ∧ _
    simp only [abs_le] at *
    refine ⟨⟨?_, ?_⟩, ⟨?_, ?_⟩⟩ <;> linarith
  · intro i
    have b2 := a2 i
    have b3 := a3 i
    obtain ⟨d1, d2⟩ := hD i
    change |(((q.halveAt (fin (1 / 2) hF.half)).2.ctrl).coords i).toReal - _| ≤ _ at b2
    change |(((q.halveAt (fin (1 / 2) hF.half)).2.start).coords i).toReal - _| ≤ _ at b3
    change _ ∧ |_ - (q.end_.coords i).toReal| ≤ _
    simp only [abs_le] at *
    refine ⟨⟨?_, ?_⟩, ⟨?_, ?_⟩⟩ <;> linarith

theorem QuadraticBezier.halve_error {M : ℝ} (hF : FlattenFormat F n M)
    (q : QuadraticBezier (PointN (Fl F) n)) (hq : q.Within M) (i : Fin n) (s : ℝ) (s0 : 0 ≤ s)
    (s1 : s ≤ 1) :
    |(q.halveAt (fin (1 / 2) hF.half)).1.exact i s - q.exact i (s / 2)|
      ≤ 13 * F.u * M + 9 * F.eta ∧
    |(q.halveAt (fin (1 / 2) hF.half)).2.exact i s - q.exact i ((1 + s) / 2)|
      ≤ 13 * F.u * M + 9 * F.eta := by
  obtain ⟨h1, h2, h3⟩ := hq
  have := (C86_quadratic q hF.half (by norm_num) (by norm_num) hF.u hF.eta h1 h2 h3 hF.max).2 i s
    s0 s1
  rw [show (1 / 2 : ℝ) * s = s / 2 by ring,
    show (1 / 2 : ℝ) + (1 - 1 / 2) * s = (1 + s) / 2 by ring] at this
  exact this

theorem QuadraticBezier.flat_of_legs {M D : ℝ} (hF : FlattenFormat F n M)
    (q : QuadraticBezier (PointN (Fl F) n)) (hq : q.Within M) (hD : q.Legs D) (tol : Fl F)
    (htf : tol.IsFinite) (htm : tol.toReal ^ 2 ≤ F.max)
    (ht : 12 * n * D ^ 2 + 3 * n * F.eta ≤ tol.toReal ^ 2) : q.isAPoint tol = true := by
  obtain ⟨h1, h2, h3⟩ := hq
  have hM : 2 * M ≤ F.max := by linarith [hF.max, hF.nonneg]
  have n0 : (0 : ℝ) ≤ n := Nat.cast_nonneg n
  unfold QuadraticBezier.isAPoint
  rw [Bool.and_eq_true]
  constructor
  · refine close_passes _ _ tol hF.u hF.eta hF.dim h1 h3 hM (D := 2 * D) (fun i => ?_) htf htm
      (le_trans (le_of_eq (by ring)) ht)
    obtain ⟨d1, d2⟩ := hD i
    rw [abs_le] at *
    constructor <;> linarith
  · refine close_passes _ _ tol hF.u hF.eta hF.dim h1 h2 hM (D := D) (fun i => (hD i).1) htf htm
      (le_trans ?_ ht)
    have : 0 ≤ n * D ^ 2 := by positivity
    linarith

theorem pdist_of_exact {p q : PointN ℝ n} {e : ℝ} (he : 0 ≤ e)
    (h : ∀ i, |p.coords i - q.coords i| ≤ e) : pdist p q ≤ Real.sqrt n * e := by
  rw [pdist_vec, ← norm_vec_const _ he]
  exact norm_vec_mono h

theorem NearSegment.of_near {a b p q : PointN ℝ n} {r e : ℝ} (h : NearSegment a b p r)
    (hpq : pdist p q ≤ e) : NearSegment a b q (r + e) := by
  obtain ⟨d, hmem, hd⟩ := h
  rw [segmentDistances_eq] at hmem
  obtain ⟨s, s0, s1, rfl⟩ := hmem
  refine ⟨‖toE a + s • (toE b - toE a) - toE q‖, ?_, ?_⟩
  · rw [segmentDistances_eq]
    exact ⟨s, s0, s1, rfl⟩
  · have := norm_add_le (toE a + s • (toE b - toE a) - toE p) (toE p - toE q)
    rw [sub_add_sub_cancel, ← pdist_eq_norm] at this
    linarith

theorem NearSegment.mono {a b p : PointN ℝ n} {r e : ℝ} (h : NearSegment a b p r)
    (hre : r ≤ e) : NearSegment a b p e := by
  obtain ⟨d, hmem, hd⟩ := h
  exact ⟨d, hmem, hd.trans hre⟩

theorem nearSegment_start {a b p : PointN ℝ n} {r : ℝ} (h : pdist p a ≤ r) :
    NearSegment a b p r := by
  refine ⟨pdist a p, ?_, by rw [pdist_comm]; exact h⟩
  rw [segmentDistances_eq]
  exact ⟨0, le_rfl, zero_le_one, by rw [pdist_eq_norm]; simp⟩

/-- **C110**, quadratic curves: flattening in floating point stops, at the latest at depth `k`, if
the tolerance is large enough compared with `2M / 2^k` and the rounding errors of the coordinates
(`19uM + 13η`). -/
theorem C110_stops_quadratic {M : ℝ} (hF : FlattenFormat F n M)
    (q : QuadraticBezier (PointN (Fl F) n)) (hq : q.Within M) (tol : Fl F) (k : ℕ)
    (htf : tol.IsFinite) (htm : tol.toReal ^ 2 ≤ F.max)
    (ht : 12 * n * (2 * M / 2 ^ k + 2 * (19 * F.u * M + 13 * F.eta)) ^ 2 + 3 * n * F.eta
      ≤ tol.toReal ^ 2) :
    let leaves := adaptive (QuadraticBezier.halveAt (fin (1 / 2) hF.half))
      (QuadraticBezier.flatEnough tol) k q
    (∀ p ∈ leaves, p.isLinear tol = some true ∨ p.isAPoint tol = true) ∧
    ∀ m, adaptive (QuadraticBezier.halveAt (fin (1 / 2) hF.half))
      (QuadraticBezier.flatEnough tol) (k + m) q = leaves := by
  intro leaves
  have n0 : (0 : ℝ) ≤ n := Nat.cast_nonneg n
  have E0 : 0 ≤ 19 * F.u * M + 13 * F.eta := by
    have := F.eta_nonneg
    have := mul_nonneg F.u_nonneg hF.nonneg
    linarith
  have hlegs : q.Legs (2 * M) := by
    intro i
    have h1 := (hq.1 i).2
    have h2 := (hq.2.1 i).2
    have h3 := (hq.2.2 i).2
    simp only [abs_le] at *
    refine ⟨⟨?_, ?_⟩, ⟨?_, ?_⟩⟩ <;> linarith
  have hstop : ∀ p ∈ leaves, QuadraticBezier.flatEnough tol p = true := by
    apply adaptive_stops
    intro p hp
    obtain ⟨pw, pl⟩ := pieces_shrink (ok := QuadraticBezier.Within M)
      (size := fun D => QuadraticBezier.Legs D) (fun q hq => q.halve_within hF hq)
      (fun q D hq hD => q.halve_legs hF hq hD) k q (2 * M) hq hlegs p hp
    have := p.flat_of_legs hF pw pl tol htf htm (le_trans ?_ ht)
    · unfold QuadraticBezier.flatEnough
      rw [this, Bool.or_true]
    · have p0 : (0 : ℝ) < 2 ^ k := by positivity
      have p1 : (1 : ℝ) / 2 ^ k ≤ 1 := by
        rw [div_le_one p0]
        exact one_le_pow₀ (by norm_num)
      have p2 : (0 : ℝ) ≤ 1 / 2 ^ k := by positivity
      have l0 : 0 ≤ 2 * M / 2 ^ k := div_nonneg (by linarith [hF.nonneg]) p0.le
      have l1 : 2 * (19 * F.u * M + 13 * F.eta) * (1 - 1 / 2 ^ k)
          ≤ 2 * (19 * F.u * M + 13 * F.eta) := mul_le_of_le_one_right (by linarith) (by linarith)
      have l2 : 0 ≤ 2 * (19 * F.u * M + 13 * F.eta) * (1 - 1 / 2 ^ k) :=
        mul_nonneg (by linarith) (by linarith)
      have := pow_le_pow_left₀ (by linarith : 0 ≤ 2 * M / 2 ^ k
        + 2 * (19 * F.u * M + 13 * F.eta) * (1 - 1 / 2 ^ k)) (add_le_add_right l1 _) 2
      have := mul_le_mul_of_nonneg_left this (by positivity : (0 : ℝ) ≤ 12 * n)
      linarith
  refine ⟨fun p hp => ?_, fun m => adaptive_stable k m q hstop⟩
  have := hstop p hp
  simpa [QuadraticBezier.flatEnough] using this

/-- **C110**, quadratic curves: however deep the recursion went, if it stopped, the baselines of
the pieces form a connected polyline from start to end; the ends of the baselines are points of
the exact curve up to `k` times the error of one split; and every point of the exact curve is
within the tolerance of the baseline of some piece, up to the rounding errors of the flatness tests
and of `k` splits. -/
theorem C110_flatten_quadratic {M : ℝ} (hF : FlattenFormat F n M)
    (q : QuadraticBezier (PointN (Fl F) n)) (hq : q.Within M) (tol : Fl F) (k : ℕ)
    (htf : tol.IsFinite) (htt : (tol * tol).IsFinite)
    (hstop : ∀ p ∈ adaptive (QuadraticBezier.halveAt (fin (1 / 2) hF.half))
      (QuadraticBezier.flatEnough tol) k q, p.isLinear tol = some true ∨ p.isAPoint tol = true) :
    let leaves := adaptive (QuadraticBezier.halveAt (fin (1 / 2) hF.half))
      (QuadraticBezier.flatEnough tol) k q
    leaves.IsChain (fun a b => a.baseline.end_ = b.baseline.start) ∧
    leaves.head?.map (fun p => p.baseline.start) = some q.start ∧
    leaves.getLast?.map (fun p => p.baseline.end_) = some q.end_ ∧
    (∀ p ∈ leaves, p.Within M ∧ ∃ a b : ℝ, 0 ≤ a ∧ a < b ∧ b ≤ 1 ∧
      pdist p.baseline.start.real (q.real.eval a) ≤ √n * (k * (13 * F.u * M + 9 * F.eta)) ∧
      pdist p.baseline.end_.real (q.real.eval b) ≤ √n * (k * (13 * F.u * M + 9 * F.eta))) ∧
    ∀ t, 0 ≤ t → t ≤ 1 → ∃ p ∈ leaves,
      NearSegment p.baseline.start.real p.baseline.end_.real (q.real.eval t)
        (max (flatTol F n M tol.toReal) (pointTol F n tol.toReal)
          + √n * (k * (13 * F.u * M + 9 * F.eta))) := by
  intro leaves
  have E0 : 0 ≤ 13 * F.u * M + 9 * F.eta := by
    have := F.eta_nonneg
    have := mul_nonneg F.u_nonneg hF.nonneg
    linarith
  have kE : 0 ≤ k * (13 * F.u * M + 9 * F.eta) := by positivity
  have hex : ∀ (q : QuadraticBezier (PointN (Fl F) n)) (i : Fin n) (s : ℝ),
      (q.real.eval s).coords i = q.exact i s := fun q i s => quadratic_real_eval q s i
  obtain ⟨c1, c2, c3⟩ := adaptive_chain (stop := QuadraticBezier.flatEnough tol)
    (split := QuadraticBezier.halveAt (P := PointN (Fl F) n) (fin (1 / 2) hF.half))
    (start := fun p => p.baseline.start) (end_ := fun p => p.baseline.end_)
    (fun _ => rfl) (fun _ => rfl) (fun _ => rfl) k q
  have hw := adaptive_inv (stop := QuadraticBezier.flatEnough tol)
    (ok := QuadraticBezier.Within M) (fun q hq => q.halve_within hF hq) k q hq
  refine ⟨c1, c2, c3, fun p hp => ⟨hw p hp, ?_⟩, fun t t0 t1 => ?_⟩
  · obtain ⟨a, b, ha, hab, hb, e⟩ := adaptive_part_near (stop := QuadraticBezier.flatEnough tol)
      (ok := QuadraticBezier.Within M) (ex := fun q i s => q.exact i s) E0
      (fun q hq => q.halve_within hF hq) (fun q hq i s s0 s1 => q.halve_error hF hq i s s0 s1) k q
      hq p hp
    refine ⟨a, b, ha, hab, hb, pdist_of_exact kE fun i => ?_, pdist_of_exact kE fun i => ?_⟩
    · have := e i 0 le_rfl zero_le_one
      rw [mul_zero, add_zero] at this
      rw [hex]
      convert this using 3
      show (p.start.coords i).toReal = _
      unfold QuadraticBezier.exact bern2
      ring
    · have := e i 1 zero_le_one le_rfl
      rw [mul_one, add_sub_cancel] at this
      rw [hex]
      convert this using 3
      show (p.end_.coords i).toReal = _
      unfold QuadraticBezier.exact bern2
      ring
  · obtain ⟨p, hp, s, s0, s1, e⟩ := adaptive_near (stop := QuadraticBezier.flatEnough tol)
      (ok := QuadraticBezier.Within M) (ex := fun q i s => q.exact i s) E0
      (fun q hq => q.halve_within hF hq) (fun q hq i s s0 s1 => q.halve_error hF hq i s s0 s1) k q
      hq t t0 t1
    refine ⟨p, hp, ?_⟩
    have near : pdist (p.real.eval s) (q.real.eval t) ≤ √n * (k * (13 * F.u * M + 9 * F.eta)) :=
      pdist_of_exact kE fun i => by rw [hex, hex]; exact e i
    obtain ⟨w1, _, w3⟩ := hw p hp
    rcases hstop p hp with hl | hl
    · exact ((C89_quadratic_is_linear p tol hF.nonneg hF.u hF.eta w1 w3
        (by linarith [hF.max, hF.nonneg]) hF.dim htf hl s s0 s1).mono (le_max_left _ _)).of_near near
    · exact ((nearSegment_start (C89_quadratic_is_a_point p tol hF.u hF.dim htt hl s s0 s1)).mono
        (le_max_right _ _)).of_near near

/-! ### Cubic curves -/

/-- All control coordinates are finite and at most `M` in magnitude. -/
def CubicBezier.Within (M : ℝ) (c : CubicBezier (PointN (Fl F) n)) : Prop :=
  BoundedBy M c.start ∧ BoundedBy M c.ctrl1 ∧ BoundedBy M c.ctrl2 ∧ BoundedBy M c.end_

/-- Neighbouring control coordinates differ by at most `D`. -/
def CubicBezier.Legs (D : ℝ) (c : CubicBezier (PointN (Fl F) n)) : Prop :=
  ∀ i, |(c.start.coords i).toReal - (c.ctrl1.coords i).toReal| ≤ D ∧
    |(c.ctrl1.coords i).toReal - (c.ctrl2.coords i).toReal| ≤ D ∧
    |(c.ctrl2.coords i).toReal - (c.end_.coords i).toReal| ≤ D

theorem CubicBezier.halve_within {M : ℝ} (hF : FlattenFormat F n M)
    (c : CubicBezier (PointN (Fl F) n)) (hc : c.Within M) :
    (c.halveAt (fin (1 / 2) hF.half)).1.Within M ∧
    (c.halveAt (fin (1 / 2) hF.half)).2.Within M := by
  obtain ⟨h1, h2, h3, h4⟩ := hc
  have h := C108_cubic hF.steps c (fun _ => -M) (fun _ => M)
    (fun _ => by linarith [hF.max, hF.nonneg]) (by
      simp only [CubicBezier.controlPoints, List.mem_cons, List.not_mem_nil, or_false,
        forall_eq_or_imp, forall_eq, insideBox_iff]
      exact ⟨h1, h2, h3, h4⟩) (half_unit hF.half)
  simp only [CubicBezier.controlPoints, List.mem_cons, List.not_mem_nil, or_false,
    forall_eq_or_imp, forall_eq, insideBox_iff] at h
  exact h.2

theorem CubicBezier.halve_legs {M D : ℝ} (hF : FlattenFormat F n M)
    (c : CubicBezier (PointN (Fl F) n)) (hc : c.Within M) (hD : c.Legs D) :
    (c.halveAt (fin (1 / 2) hF.half)).1.Legs (D / 2 + (33 * F.u * M + 23 * F.eta)) ∧
    (c.halveAt (fin (1 / 2) hF.half)).2.Legs (D / 2 + (33 * F.u * M + 23 * F.eta)) := by
  obtain ⟨h1, h2, h3, h4⟩ := hc
  have e0 := F.eta_nonneg
  have uM : 0 ≤ F.u * M := mul_nonneg F.u_nonneg hF.nonneg
  have hM := hF.nonneg
  have hmax := hF.max
  have a1 := fun i => (C67_line_eval ⟨c.start, c.ctrl1⟩ hF.half (by norm_num) (by norm_num) hF.u
    hF.eta h1 h2 (by linarith) i).2
  have a3 := fun i => (C67_line_eval ⟨c.ctrl2, c.end_⟩ hF.half (by norm_num) (by norm_num) hF.u
    hF.eta h3 h4 (by linarith) i).2
  have a4 := fun i => (C67_quadratic_casteljau ⟨c.start, c.ctrl1, c.ctrl2⟩ hF.half (by norm_num)
    (by norm_num) hF.u hF.eta h1 h2 h3 hmax i).2
  have a5 := fun i => (C67_quadratic_casteljau ⟨c.ctrl1, c.ctrl2, c.end_⟩ hF.half (by norm_num)
    (by norm_num) hF.u hF.eta h2 h3 h4 hmax i).2
  have a6 := fun i => (C67_cubic_casteljau c hF.half (by norm_num) (by norm_num) hF.u
    hF.eta h1 h2 h3 h4 hmax i).2
  constructor
  · intro i
    have b1 := a1 i
    have b2 := a4 i
    have b3 := a6 i
    obtain ⟨d1, d2, d3⟩ := hD i
    change |(((c.halveAt (fin (1 / 2) hF.half)).1.ctrl1).coords i).toReal - _| ≤ _ at b1
    change |(((c.halveAt (fin (1 / 2) hF.half)).1.ctrl2).coords i).toReal - _| ≤ _ at b2
    change |(((c.halveAt (fin (1 / 2) hF.half)).1.end_).coords i).toReal - _| ≤ _ at b3
    change |(c.start.coords i).toReal - _| ≤ _ ∧ _
    simp only [abs_le] at *
    refine ⟨⟨?_, ?_⟩, ⟨?_, ?_⟩, ⟨?_, ?_⟩⟩ <;> linarith
  · intro i
    have b1 := a3 i
    have b2 := a5 i
    have b3 := a6 i
    obtain ⟨d1, d2, d3⟩ := hD i
    change |(((c.halveAt (fin (1 / 2) hF.half)).2.ctrl2).coords i).toReal - _| ≤ _ at b1
    change |(((c.halveAt (fin (1 / 2) hF.half)).2.ctrl1).coords i).toReal - _| ≤ _ at b2
    change |(((c.halveAt (fin (1 / 2) hF.half)).2.start).coords i).toReal - _| ≤ _ at b3
    change _ ∧ _ ∧ |_ - (c.end_.coords i).toReal| ≤ _
    simp only [abs_le] at *
    refine ⟨⟨?_, ?_⟩, ⟨?_, ?_⟩, ⟨?_, ?_⟩⟩ <;> linarith

theorem CubicBezier.halve_error {M : ℝ} (hF : FlattenFormat F n M)
    (c : CubicBezier (PointN (Fl F) n)) (hc : c.Within M) (i : Fin n) (s : ℝ) (s0 : 0 ≤ s)
    (s1 : s ≤ 1) :
    |(c.halveAt (fin (1 / 2) hF.half)).1.exact i s - c.exact i (s / 2)|
      ≤ 20 * F.u * M + 14 * F.eta ∧
    |(c.halveAt (fin (1 / 2) hF.half)).2.exact i s - c.exact i ((1 + s) / 2)|
      ≤ 20 * F.u * M + 14 * F.eta := by
  obtain ⟨h1, h2, h3, h4⟩ := hc
  have := (C86_cubic c hF.half (by norm_num) (by norm_num) hF.u hF.eta h1 h2 h3 h4 hF.max).2 i s
    s0 s1
  rw [show (1 / 2 : ℝ) * s = s / 2 by ring,
    show (1 / 2 : ℝ) + (1 - 1 / 2) * s = (1 + s) / 2 by ring] at this
  exact this

theorem CubicBezier.flat_of_legs {M D : ℝ} (hF : FlattenFormat F n M)
    (c : CubicBezier (PointN (Fl F) n)) (hc : c.Within M) (hD : c.Legs D) (tol : Fl F)
    (htf : tol.IsFinite) (htm : tol.toReal ^ 2 ≤ F.max)
    (ht : 27 * n * D ^ 2 + 3 * n * F.eta ≤ tol.toReal ^ 2) : c.isAPoint tol = true := by
  obtain ⟨h1, h2, h3, h4⟩ := hc
  have hM : 2 * M ≤ F.max := by linarith [hF.max, hF.nonneg]
  have n0 : (0 : ℝ) ≤ n := Nat.cast_nonneg n
  have nD : 0 ≤ n * D ^ 2 := by positivity
  unfold CubicBezier.isAPoint
  rw [Bool.and_eq_true, Bool.and_eq_true]
  refine ⟨⟨?_, ?_⟩, ?_⟩
  · refine close_passes _ _ tol hF.u hF.eta hF.dim h1 h4 hM (D := 3 * D) (fun i => ?_) htf htm
      (le_trans (le_of_eq (by ring)) ht)
    obtain ⟨d1, d2, d3⟩ := hD i
    rw [abs_le] at *
    constructor <;> linarith
  · exact close_passes _ _ tol hF.u hF.eta hF.dim h1 h2 hM (D := D) (fun i => (hD i).1) htf htm
      (le_trans (by linarith) ht)
  · exact close_passes _ _ tol hF.u hF.eta hF.dim h4 h3 hM (D := D)
      (fun i => by rw [abs_sub_comm]; exact (hD i).2.2) htf htm (le_trans (by linarith) ht)

/-- **C110**, cubic curves: flattening stops if the tolerance is not too small. -/
theorem C110_stops_cubic {M : ℝ} (hF : FlattenFormat F n M)
    (c : CubicBezier (PointN (Fl F) n)) (hc : c.Within M) (tol : Fl F) (k : ℕ)
    (htf : tol.IsFinite) (htm : tol.toReal ^ 2 ≤ F.max)
    (ht : 27 * n * (2 * M / 2 ^ k + 2 * (33 * F.u * M + 23 * F.eta)) ^ 2 + 3 * n * F.eta
      ≤ tol.toReal ^ 2) :
    let leaves := adaptive (CubicBezier.halveAt (fin (1 / 2) hF.half))
      (CubicBezier.flatEnough tol) k c
    (∀ p ∈ leaves, p.isLinear tol = some true ∨ p.isAPoint tol = true) ∧
    ∀ m, adaptive (CubicBezier.halveAt (fin (1 / 2) hF.half))
      (CubicBezier.flatEnough tol) (k + m) c = leaves := by
  intro leaves
  have n0 : (0 : ℝ) ≤ n := Nat.cast_nonneg n
  have E0 : 0 ≤ 33 * F.u * M + 23 * F.eta := by
    have := F.eta_nonneg
    have := mul_nonneg F.u_nonneg hF.nonneg
    linarith
  have hlegs : c.Legs (2 * M) := by
    intro i
    have h1 := (hc.1 i).2
    have h2 := (hc.2.1 i).2
    have h3 := (hc.2.2.1 i).2
    have h4 := (hc.2.2.2 i).2
    simp only [abs_le] at *
    refine ⟨⟨?_, ?_⟩, ⟨?_, ?_⟩, ⟨?_, ?_⟩⟩ <;> linarith
  have hstop : ∀ p ∈ leaves, CubicBezier.flatEnough tol p = true := by
    apply adaptive_stops
    intro p hp
    obtain ⟨pw, pl⟩ := pieces_shrink (ok := CubicBezier.Within M)
      (size := fun D => CubicBezier.Legs D) (fun q hq => q.halve_within hF hq)
      (fun q D hq hD => q.halve_legs hF hq hD) k c (2 * M) hc hlegs p hp
    have := p.flat_of_legs hF pw pl tol htf htm (le_trans ?_ ht)
    · unfold CubicBezier.flatEnough
      rw [this, Bool.or_true]
    · have p0 : (0 : ℝ) < 2 ^ k := by positivity
      have p1 : (1 : ℝ) / 2 ^ k ≤ 1 := by
        rw [div_le_one p0]
        exact one_le_pow₀ (by norm_num)
      have p2 : (0 : ℝ) ≤ 1 / 2 ^ k := by positivity
      have l0 : 0 ≤ 2 * M / 2 ^ k := div_nonneg (by linarith [hF.nonneg]) p0.le
      have l1 : 2 * (33 * F.u * M + 23 * F.eta) * (1 - 1 / 2 ^ k)
          ≤ 2 * (33 * F.u * M + 23 * F.eta) := mul_le_of_le_one_right (by linarith) (by linarith)
      have l2 : 0 ≤ 2 * (33 * F.u * M + 23 * F.eta) * (1 - 1 / 2 ^ k) :=
        mul_nonneg (by linarith) (by linarith)
      have := pow_le_pow_left₀ (by linarith : 0 ≤ 2 * M / 2 ^ k
        + 2 * (33 * F.u * M + 23 * F.eta) * (1 - 1 / 2 ^ k)) (add_le_add_right l1 _) 2
      have := mul_le_mul_of_nonneg_left this (by positivity : (0 : ℝ) ≤ 27 * n)
      linarith
  refine ⟨fun p hp => ?_, fun m => adaptive_stable k m c hstop⟩
  have := hstop p hp
  simpa [CubicBezier.flatEnough] using this

/-- **C110**, cubic curves: the polyline is close to the exact curve. -/
theorem C110_flatten_cubic {M : ℝ} (hF : FlattenFormat F n M)
    (c : CubicBezier (PointN (Fl F) n)) (hc : c.Within M) (tol : Fl F) (k : ℕ)
    (htf : tol.IsFinite) (htt : (tol * tol).IsFinite)
    (hstop : ∀ p ∈ adaptive (CubicBezier.halveAt (fin (1 / 2) hF.half))
      (CubicBezier.flatEnough tol) k c, p.isLinear tol = some true ∨ p.isAPoint tol = true) :
    let leaves := adaptive (CubicBezier.halveAt (fin (1 / 2) hF.half))
      (CubicBezier.flatEnough tol) k c
    leaves.IsChain (fun a b => a.baseline.end_ = b.baseline.start) ∧
    leaves.head?.map (fun p => p.baseline.start) = some c.start ∧
    leaves.getLast?.map (fun p => p.baseline.end_) = some c.end_ ∧
    (∀ p ∈ leaves, p.Within M ∧ ∃ a b : ℝ, 0 ≤ a ∧ a < b ∧ b ≤ 1 ∧
      pdist p.baseline.start.real (c.real.eval a) ≤ √n * (k * (20 * F.u * M + 14 * F.eta)) ∧
      pdist p.baseline.end_.real (c.real.eval b) ≤ √n * (k * (20 * F.u * M + 14 * F.eta))) ∧
    ∀ t, 0 ≤ t → t ≤ 1 → ∃ p ∈ leaves,
      NearSegment p.baseline.start.real p.baseline.end_.real (c.real.eval t)
        (max (flatTol F n M tol.toReal) (√2 * pointTol F n tol.toReal)
          + √n * (k * (20 * F.u * M + 14 * F.eta))) := by
  intro leaves
  have E0 : 0 ≤ 20 * F.u * M + 14 * F.eta := by
    have := F.eta_nonneg
    have := mul_nonneg F.u_nonneg hF.nonneg
    linarith
  have kE : 0 ≤ k * (20 * F.u * M + 14 * F.eta) := by positivity
  have hex : ∀ (q : CubicBezier (PointN (Fl F) n)) (i : Fin n) (s : ℝ),
      (q.real.eval s).coords i = q.exact i s := fun q i s => cubic_real_eval q s i
  obtain ⟨c1, c2, c3⟩ := adaptive_chain (stop := CubicBezier.flatEnough tol)
    (split := CubicBezier.halveAt (P := PointN (Fl F) n) (fin (1 / 2) hF.half))
    (start := fun p => p.baseline.start) (end_ := fun p => p.baseline.end_)
    (fun _ => rfl) (fun _ => rfl) (fun _ => rfl) k c
  have hw := adaptive_inv (stop := CubicBezier.flatEnough tol)
    (ok := CubicBezier.Within M) (fun q hq => q.halve_within hF hq) k c hc
  refine ⟨c1, c2, c3, fun p hp => ⟨hw p hp, ?_⟩, fun t t0 t1 => ?_⟩
  · obtain ⟨a, b, ha, hab, hb, e⟩ := adaptive_part_near (stop := CubicBezier.flatEnough tol)
      (ok := CubicBezier.Within M) (ex := fun q i s => q.exact i s) E0
      (fun q hq => q.halve_within hF hq) (fun q hq i s s0 s1 => q.halve_error hF hq i s s0 s1) k c
      hc p hp
    refine ⟨a, b, ha, hab, hb, pdist_of_exact kE fun i => ?_, pdist_of_exact kE fun i => ?_⟩
    · have := e i 0 le_rfl zero_le_one
      rw [mul_zero, add_zero] at this
      rw [hex]
      convert this using 3
      show (p.start.coords i).toReal = _
      unfold CubicBezier.exact bern3
      ring
    · have := e i 1 zero_le_one le_rfl
      rw [mul_one, add_sub_cancel] at this
      rw [hex]
      convert this using 3
      show (p.end_.coords i).toReal = _
      unfold CubicBezier.exact bern3
      ring
  · obtain ⟨p, hp, s, s0, s1, e⟩ := adaptive_near (stop := CubicBezier.flatEnough tol)
      (ok := CubicBezier.Within M) (ex := fun q i s => q.exact i s) E0
      (fun q hq => q.halve_within hF hq) (fun q hq i s s0 s1 => q.halve_error hF hq i s s0 s1) k c
      hc t t0 t1
    refine ⟨p, hp, ?_⟩
    have near : pdist (p.real.eval s) (c.real.eval t) ≤ √n * (k * (20 * F.u * M + 14 * F.eta)) :=
      pdist_of_exact kE fun i => by rw [hex, hex]; exact e i
    obtain ⟨w1, _, _, w3⟩ := hw p hp
    rcases hstop p hp with hl | hl
    · exact ((C89_cubic_is_linear p tol hF.nonneg hF.u hF.eta w1 w3
        (by linarith [hF.max, hF.nonneg]) hF.dim htf hl s s0 s1).mono (le_max_left _ _)).of_near near
    · exact ((nearSegment_start (C89_cubic_is_a_point p tol hF.u hF.dim htt hl s s0 s1)).mono
        (le_max_right _ _)).of_near near

/-! ### Which tolerances are large enough -/

/-- **C110**: a depth at which flattening of a quadratic curve stops exists for every tolerance
above about `7√n` times the rounding error `19uM + 13η` of the coordinates. -/
theorem C110_depth_quadratic {M : ℝ} (n : ℕ) (tol : ℝ)
    (ht : 12 * n * (2 * (19 * F.u * M + 13 * F.eta)) ^ 2 + 3 * n * F.eta < tol ^ 2) :
    ∃ k : ℕ, 12 * n * (2 * M / 2 ^ k + 2 * (19 * F.u * M + 13 * F.eta)) ^ 2 + 3 * n * F.eta
      ≤ tol ^ 2 := by
  have h1 : Filter.Tendsto (fun k : ℕ => 2 * M / (2 : ℝ) ^ k) Filter.atTop (nhds 0) := by
    have := (tendsto_pow_atTop_nhds_zero_of_lt_one (r := (1 / 2 : ℝ)) (by norm_num)
      (by norm_num)).const_mul (2 * M)
    rw [mul_zero] at this
    refine this.congr fun k => ?_
    rw [one_div, inv_pow, div_eq_mul_inv]
  have h2 := (((h1.add_const (2 * (19 * F.u * M + 13 * F.eta))).pow 2).const_mul
    (12 * n : ℝ)).add_const (3 * n * F.eta)
  rw [zero_add] at h2
  obtain ⟨k, hk⟩ := (h2.eventually_lt_const ht).exists
  exact ⟨k, hk.le⟩

/-- **C110**: the same for cubic curves, `11√n` times `33uM + 23η`. -/
theorem C110_depth_cubic {M : ℝ} (n : ℕ) (tol : ℝ)
    (ht : 27 * n * (2 * (33 * F.u * M + 23 * F.eta)) ^ 2 + 3 * n * F.eta < tol ^ 2) :
    ∃ k : ℕ, 27 * n * (2 * M / 2 ^ k + 2 * (33 * F.u * M + 23 * F.eta)) ^ 2 + 3 * n * F.eta
      ≤ tol ^ 2 := by
  have h1 : Filter.Tendsto (fun k : ℕ => 2 * M / (2 : ℝ) ^ k) Filter.atTop (nhds 0) := by
    have := (tendsto_pow_atTop_nhds_zero_of_lt_one (r := (1 / 2 : ℝ)) (by norm_num)
      (by norm_num)).const_mul (2 * M)
    rw [mul_zero] at this
    refine this.congr fun k => ?_
    rw [one_div, inv_pow, div_eq_mul_inv]
  have h2 := (((h1.add_const (2 * (33 * F.u * M + 23 * F.eta))).pow 2).const_mul
    (27 * n : ℝ)).add_const (3 * n * F.eta)
  rw [zero_add] at h2
  obtain ⟨k, hk⟩ := (h2.eventually_lt_const ht).exists
  exact ⟨k, hk.le⟩

/-- The hypotheses hold in binary64 for plane curves with coordinates up to 1000 and the tolerance
2⁻³⁰, at depth 45. -/
example (cosI acosI : ℝ → ℝ) (powI : ℝ → ℝ → ℝ) : let F := binary64 cosI acosI powI
    FlattenFormat F 2 1000 ∧ (∃ tol : Fl F, tol.IsFinite ∧ (tol * tol).IsFinite ∧
      tol.toReal = 2 ^ (-30 : ℤ)) ∧ ((2 : ℝ) ^ (-30 : ℤ)) ^ 2 ≤ F.max ∧
    12 * (2 : ℕ) * (2 * 1000 / 2 ^ 45 + 2 * (19 * F.u * 1000 + 13 * F.eta)) ^ 2
      + 3 * (2 : ℕ) * F.eta ≤ ((2 : ℝ) ^ (-30 : ℤ)) ^ 2 ∧
    27 * (2 : ℕ) * (2 * 1000 / 2 ^ 45 + 2 * (33 * F.u * 1000 + 23 * F.eta)) ^ 2
      + 3 * (2 : ℕ) * F.eta ≤ ((2 : ℝ) ^ (-30 : ℤ)) ^ 2 ∧
    ∃ c : CubicBezier (PointN (Fl F) 2), c.Within 1000 := by
  intro F
  have hu : F.u = 2 ^ (-53 : ℤ) := rfl
  have he : F.eta ≤ 1 / 10 ^ 60 := binary64_eta cosI acosI powI
  have e0 := F.eta_nonneg
  have hmax : (10 : ℝ) ^ 60 ≤ F.max := binary64_max cosI acosI powI
  have hx := dyadic_ok cosI acosI powI 1 (-30) (by norm_num) (by norm_num)
    (x := 2 ^ (-30 : ℤ)) (by norm_num) (by norm_num [abs_le])
  refine ⟨⟨(C108_ieee cosI acosI powI).1, by rw [hu]; norm_num, he.trans (by norm_num),
    by rw [hu]; norm_num, dyadic_ok cosI acosI powI 1 (-1) (by norm_num) (by norm_num)
      (by norm_num) (by norm_num [abs_le]), by norm_num, le_trans (by norm_num) hmax⟩,
    ⟨fin _ hx, trivial, ?_, rfl⟩, le_trans (by norm_num) hmax, ?_, ?_, ?_⟩
  · rw [fin_mul, F.round_of_le (le_trans (by norm_num [abs_le]) hmax)]
    trivial
  · rw [hu]
    have : (2 * 1000 / 2 ^ 45 + 2 * (19 * (2 : ℝ) ^ (-53 : ℤ) * 1000 + 13 * F.eta)) ^ 2
        ≤ (2 * 1000 / 2 ^ 45 + 2 * (19 * (2 : ℝ) ^ (-53 : ℤ) * 1000 + 13 * (1 / 10 ^ 60))) ^ 2 :=
      pow_le_pow_left₀ (by positivity) (by gcongr) 2
    norm_num at this he ⊢
    linarith
  · rw [hu]
    have : (2 * 1000 / 2 ^ 45 + 2 * (33 * (2 : ℝ) ^ (-53 : ℤ) * 1000 + 23 * F.eta)) ^ 2
        ≤ (2 * 1000 / 2 ^ 45 + 2 * (33 * (2 : ℝ) ^ (-53 : ℤ) * 1000 + 23 * (1 / 10 ^ 60))) ^ 2 :=
      pow_le_pow_left₀ (by positivity) (by gcongr) 2
    norm_num at this he ⊢
    linarith
  · have b : ∀ k : ℤ, |k| ≤ 1000 → BoundedBy 1000 (⟨fun _ => lit k⟩ : PointN (Fl F) 2) := by
      intro k hk i
      show (lit k : Fl F).IsFinite ∧ |(lit k : Fl F).toReal| ≤ 1000
      rw [lit_int k (hk.trans (by norm_num))]
      exact ⟨trivial, by rw [toReal_fin]; exact_mod_cast hk⟩
    exact ⟨⟨_, _, _, _⟩, b 3 (by norm_num), b (-700) (by norm_num), b 512 (by norm_num),
      b 1 (by norm_num)⟩

/-! ### Tolerances that are too small -/

theorem adaptive_stuck {Q : Type} {split : Q → Q × Q} {stop : Q → Bool} {q : Q}
    (h : (split q).2 = q) (hs : stop q = false) (k : ℕ) : q ∈ adaptive split stop k q := by
  induction k with
  | zero => simp [adaptive]
  | succ k ih =>
    rw [adaptive, hs]
    simp only [Bool.false_eq_true, if_false]
    rw [List.mem_append, h]
    exact Or.inr ih

/-- Rounding of a number between `2 ^ k` and `2 ^ (k + 1)`. -/
theorem ieeeRnd_binade {p : ℕ} {emin : ℤ} {x : ℝ} (k m : ℤ) (hk : emin ≤ k - (p - 1))
    (h1 : (2 : ℝ) ^ k ≤ x) (h2 : x < (2 : ℝ) ^ (k + 1))
    (hm : |x / 2 ^ (k - (p - 1)) - m| < 1 / 2 ∨ (|x / 2 ^ (k - (p - 1)) - m| = 1 / 2 ∧ Even m)) :
    ieeeRnd p emin x = m * 2 ^ (k - (p - 1)) := by
  have x0 : 0 < x := lt_of_lt_of_le (by positivity) h1
  have hl : Int.log 2 |x| = k := by
    rw [abs_of_pos x0]
    apply le_antisymm
    · have : Int.log 2 x < k + 1 := by
        rw [← Int.lt_zpow_iff_log_lt (by norm_num) x0]
        exact_mod_cast h2
      omega
    · rw [← Int.zpow_le_iff_le_log (by norm_num) x0]
      exact_mod_cast h1
  have hu : ulpExp p emin x = k - (p - 1) := by
    unfold ulpExp
    rw [hl, max_eq_left hk]
  unfold ieeeRnd
  rw [hu, roundEven_unique (roundEven_spec _) hm]

/-- **C110** does not hold for all tolerances: in binary32 (`f32`), flattening the quadratic curve
from (64, 64) via (64, 64) to (64 + 2⁻¹⁷, 64 + 2⁻¹⁷), or the cubic curve with both inner control
points at the start, with a tolerance of at most 2⁻¹⁷ (about 7.6e-6) never stops: the second half
of the curve is the curve itself. -/
theorem C110_runs_forever (cosI acosI : ℝ → ℝ) (powI : ℝ → ℝ → ℝ) :
    let F := binary32 cosI acosI powI
    ∃ (half : (1 / 2 : ℝ) ∈ F.grid ∧ |(1 / 2 : ℝ)| ≤ F.max)
      (hx : (64 : ℝ) ∈ F.grid ∧ |(64 : ℝ)| ≤ F.max)
      (hy : (64 + 2 ^ (-17 : ℤ) : ℝ) ∈ F.grid ∧ |(64 + 2 ^ (-17 : ℤ) : ℝ)| ≤ F.max),
    let s : PointN (Fl F) 2 := ⟨fun _ => fin 64 hx⟩
    let e : PointN (Fl F) 2 := ⟨fun _ => fin (64 + 2 ^ (-17 : ℤ)) hy⟩
    let q : QuadraticBezier (PointN (Fl F) 2) := ⟨s, s, e⟩
    let c : CubicBezier (PointN (Fl F) 2) := ⟨s, s, s, e⟩
    ∀ tol : Fl F, tol.IsFinite → |tol.toReal| ≤ 2 ^ (-17 : ℤ) → ∀ k : ℕ,
      (q ∈ adaptive (QuadraticBezier.halveAt (fin (1 / 2) half))
          (QuadraticBezier.flatEnough tol) k q ∧ q.flatEnough tol = false) ∧
      (c ∈ adaptive (CubicBezier.halveAt (fin (1 / 2) half))
          (CubicBezier.flatEnough tol) k c ∧ c.flatEnough tol = false) := by
  intro F
  have ok : ∀ (m e : ℤ) (x : ℝ), |m| ≤ 2 ^ 24 → -149 ≤ e → x = m * 2 ^ e → |x| ≤ 1024 →
      x ∈ F.grid ∧ |x| ≤ F.max := fun m e x hm he hx hb =>
    ⟨⟨m, e, hm, he, hx⟩, hb.trans F.max_ge⟩
  have half := ok 1 (-1) (1 / 2) (by norm_num) (by norm_num) (by norm_num) (by norm_num [abs_le])
  have hx := ok 64 0 64 (by norm_num) (by norm_num) (by norm_num) (by norm_num [abs_le])
  have hy := ok (2 ^ 23 + 1) (-17) (64 + 2 ^ (-17 : ℤ)) (by norm_num) (by norm_num)
    (by norm_num) (by norm_num [abs_le])
  have d17 := ok 1 (-17) (2 ^ (-17 : ℤ)) (by norm_num) (by norm_num) (by norm_num)
    (by norm_num [abs_le])
  have d18 := ok 1 (-18) (2 ^ (-18 : ℤ)) (by norm_num) (by norm_num) (by norm_num)
    (by norm_num [abs_le])
  have d34 := ok 1 (-34) (2 ^ (-34 : ℤ)) (by norm_num) (by norm_num) (by norm_num)
    (by norm_num [abs_le])
  have d33 := ok 1 (-33) (2 ^ (-33 : ℤ)) (by norm_num) (by norm_num) (by norm_num)
    (by norm_num [abs_le])
  refine ⟨half, hx, hy, ?_⟩
  intro s e q c tol htf htol k
  -- the two lines between control points
  have flat : s + (s - s) * (fin (1 / 2) half : Fl F) = s := by
    apply pointN_ext
    intro i
    show (fin 64 hx + (fin 64 hx - fin 64 hx) * fin (1 / 2) half : Fl F) = fin 64 hx
    rw [fin_sub, round_eq (y := 0) (by norm_num) F.zero_ok, fin_mul,
      round_eq (y := 0) (by norm_num) F.zero_ok, fin_add, round_eq (y := 64) (by norm_num) hx]
  have step : s + (e - s) * (fin (1 / 2) half : Fl F) = s := by
    apply pointN_ext
    intro i
    show (fin 64 hx + (fin (64 + 2 ^ (-17 : ℤ)) hy - fin 64 hx) * fin (1 / 2) half : Fl F)
      = fin 64 hx
    rw [fin_sub, round_eq (y := 2 ^ (-17 : ℤ)) (by norm_num) d17, fin_mul,
      round_eq (y := 2 ^ (-18 : ℤ)) (by norm_num) d18, fin_add]
    have er : F.rnd (64 + 2 ^ (-18 : ℤ)) = 64 := by
      show ieeeRnd 24 (-149) (64 + 2 ^ (-18 : ℤ)) = 64
      rw [ieeeRnd_binade 6 (2 ^ 23) (by norm_num) (by norm_num) (by norm_num)
        (Or.inr ⟨by norm_num, by decide⟩)]
      norm_num
    rw [F.round_of_rnd_le (by rw [er]; exact hx.2)]
    exact fin_congr er
  -- the test
  have len : (Point.squaredLength (s - e) : Fl F) = fin (2 ^ (-33 : ℤ)) d33 := by
    have m17 := ok (-1) (-17) (-2 ^ (-17 : ℤ)) (by norm_num) (by norm_num) (by norm_num)
      (by norm_num [abs_le])
    have hc : ∀ i, (s - e).coords i = fin (-2 ^ (-17 : ℤ)) m17 := by
      intro i
      show (fin 64 hx - fin (64 + 2 ^ (-17 : ℤ)) hy : Fl F) = _
      rw [fin_sub, round_eq (y := -2 ^ (-17 : ℤ)) (by norm_num) m17]
    have e1 : (Point.squaredLength (s - e) : Fl F) = (List.finRange 2).foldl
        (fun d i => d + (s - e).coords i * (s - e).coords i) (fin 0 F.zero_ok) := by
      rw [← lit_zero]; rfl
    rw [e1]
    simp only [hc, List.finRange_succ, List.finRange_zero, List.map_nil, List.map_cons,
      List.foldl_cons, List.foldl_nil]
    rw [fin_mul, round_eq (y := 2 ^ (-34 : ℤ)) (by norm_num) d34, fin_add,
      round_eq (y := 2 ^ (-34 : ℤ)) (by norm_num) d34, fin_add,
      round_eq (y := 2 ^ (-33 : ℤ)) (by norm_num) d33]
  have small : Scalar.lt (Point.squaredLength (s - e) : Fl F) Scalar.epsilon = true := by
    rw [len, epsilon_eq]
    refine lt_fin.2 ?_
    show (2 : ℝ) ^ (-33 : ℤ) < 2 ^ (1 - ((24 : ℕ) : ℤ))
    norm_num
  have big : Scalar.le (Point.squaredLength (s - e) : Fl F) (tol * tol) = false := by
    obtain ⟨b, hb, rfl⟩ := isFinite_iff.1 htf
    rw [toReal_fin] at htol
    have h2 : b * b ≤ 2 ^ (-34 : ℤ) := by
      rw [← sq, ← sq_abs]
      have := pow_le_pow_left₀ (abs_nonneg b) htol 2
      refine this.trans (by norm_num)
    have h1 : |b * b| ≤ 2 ^ (-34 : ℤ) := by rwa [abs_of_nonneg (mul_self_nonneg b)]
    rw [len, fin_mul, F.round_of_le (h1.trans (le_trans (by norm_num) F.max_ge)),
      ← Bool.not_eq_true, le_fin, not_le]
    have h3 := F.rnd_mono h2
    rw [F.rnd_of_mem _ d34.1] at h3
    refine lt_of_le_of_lt h3 (by norm_num)
  have stopq : q.flatEnough tol = false := by
    unfold QuadraticBezier.flatEnough QuadraticBezier.isLinear QuadraticBezier.isAPoint
    show ((if Scalar.lt (Point.squaredLength (s - e) : Fl F) Scalar.epsilon then pure false
      else _) == some true || (Scalar.le (Point.squaredLength (s - e) : Fl F) (tol * tol) && _))
      = false
    rw [small, big]
    rfl
  have stopc : c.flatEnough tol = false := by
    unfold CubicBezier.flatEnough CubicBezier.isLinear CubicBezier.isAPoint
    show ((if Scalar.lt (Point.squaredLength (s - e) : Fl F) Scalar.epsilon then pure false
      else _) == some true || (Scalar.le (Point.squaredLength (s - e) : Fl F) (tol * tol) && _ && _))
      = false
    rw [small, big]
    rfl
  refine ⟨⟨adaptive_stuck ?_ stopq k, stopq⟩, adaptive_stuck ?_ stopc k, stopc⟩
  · show QuadraticBezier.mk _ _ _ = _
    simp only [q]
    rw [flat, step, flat]
  · show CubicBezier.mk _ _ _ _ = _
    simp only [c]
    simp only [flat, step]

end Stroke
