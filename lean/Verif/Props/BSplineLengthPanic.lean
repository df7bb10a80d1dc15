import Verif.Props.BSplineLength
import Verif.Props.BSplineSuccess
import Verif.Props.FloatBSplineStart

/-!
# When the length of a B-spline can be computed (C132)

`BSpline::arclen` evaluates the spline at `nsteps + 1` parameters and one step further on.  It is a
value exactly when none of these evaluations panics.  Spelt out for the four kinds of knot vectors,
this is no restriction for splines clamped at both ends, and never the case for splines that are
clamped at the end only.
-/

set_option linter.unusedSectionVars false

namespace Stroke

/-- A loop whose body fails for reasons that do not depend on the state fails when one of its
iterations does. -/
theorem forRange_none_iff {σ : Type} {body : ℕ → σ → Option σ} {Q : ℕ → Prop}
    (hb : ∀ i s, body i s = none ↔ Q i) (m : ℕ) (s : σ) :
    forRange 0 m s body = none ↔ ∃ i, i < m ∧ Q i := by
  induction m with
  | zero =>
    rw [forRange_empty le_rfl]
    simp
  | succ m ih =>
    rw [forRange_succ (Nat.zero_le m)]
    cases hf : forRange 0 m s body with
    | none =>
      obtain ⟨i, hi, hq⟩ := ih.1 hf
      simp only [Option.bind_eq_bind, Option.bind_none, true_iff]
      exact ⟨i, by omega, hq⟩
    | some s' =>
      simp only [Option.bind_eq_bind, Option.bind_some, hb]
      constructor
      · exact fun hq => ⟨m, by omega, hq⟩
      · rintro ⟨i, hi, hq⟩
        rcases Nat.lt_succ_iff_lt_or_eq.1 hi with h' | rfl
        · have := ih.2 ⟨i, h', hq⟩
          rw [hf] at this
          simp at this
        · exact hq

section Generic
variable {S P : Type} [Scalar S] [Point S P] {K C D : ℕ}

theorem evalOrDefault_none (b : BSpline S P K C D) (t : S) :
    b.evalOrDefault t = none ↔ b.eval t = .panic := by
  unfold BSpline.evalOrDefault
  cases b.eval t <;> simp

/-- **C132**, in every arithmetic: `arclen` with `n` steps panics exactly when one of its
evaluations does, that is, when the evaluation panics at `t = lo + (i / n)·(hi − lo)` or at
`t + 1 / n` for some `i ≤ n`, `[lo, hi]` being the knot domain. -/
theorem C132_panics_iff (b : BSpline S P K C D) {lo hi : S} (hd : b.knotDomain = some (lo, hi))
    (n : ℕ) :
    b.arclen n = none ↔ ∃ i ≤ n,
      b.eval (lo + Scalar.ofUsize i / Scalar.ofUsize n * (hi - lo)) = .panic ∨
      b.eval (lo + Scalar.ofUsize i / Scalar.ofUsize n * (hi - lo)
        + lit 1 / Scalar.ofUsize n) = .panic := by
  unfold BSpline.arclen
  simp only [hd, Option.bind_eq_bind, Option.bind_some]
  rw [forRange_none_iff (Q := fun i =>
      b.eval (lo + Scalar.ofUsize i / Scalar.ofUsize n * (hi - lo)) = .panic ∨
      b.eval (lo + Scalar.ofUsize i / Scalar.ofUsize n * (hi - lo)
        + lit 1 / Scalar.ofUsize n) = .panic)]
  · simp only [Nat.lt_succ_iff]
  · intro i s
    rw [← evalOrDefault_none, ← evalOrDefault_none]
    cases b.evalOrDefault (lo + Scalar.ofUsize i / Scalar.ofUsize n * (hi - lo)) with
    | none => simp
    | some p =>
      simp only [Option.bind_some, reduceCtorEq, false_or]
      cases b.evalOrDefault (lo + Scalar.ofUsize i / Scalar.ofUsize n * (hi - lo)
        + lit 1 / Scalar.ofUsize n) <;> simp

end Generic

section Exact
variable {P : Type} [Point ℝ P] {K C D : ℕ} {knots : Arr ℝ K} {ps : Arr P C}
  {b : BSpline ℝ P K C D}

/-- The parameters at which `arclen` with `n` steps evaluates a spline on `[lo, hi]`. -/
def LengthSample (lo hi : ℝ) (n : ℕ) (s : ℝ) : Prop :=
  ∃ i : ℕ, i ≤ n ∧ (s = lo + (i : ℝ) / n * (hi - lo) ∨ s = lo + (i : ℝ) / n * (hi - lo) + 1 / n)

theorem arclen_none_iff (b : BSpline ℝ P K C D) {lo hi : ℝ} (hd : b.knotDomain = some (lo, hi))
    (n : ℕ) : b.arclen n = none ↔ ∃ s, LengthSample lo hi n s ∧ b.eval s = .panic := by
  have h1 : (lit 1 : ℝ) = 1 := by simp [lit_real]
  have hu : ∀ m : ℕ, (Scalar.ofUsize m : ℝ) = m := fun m => rfl
  rw [C132_panics_iff b hd]
  simp only [hu, h1, LengthSample]
  constructor
  · rintro ⟨i, hi, h | h⟩
    · exact ⟨_, ⟨i, hi, Or.inl rfl⟩, h⟩
    · exact ⟨_, ⟨i, hi, Or.inr rfl⟩, h⟩
  · rintro ⟨s, ⟨i, hi, rfl | rfl⟩, h⟩
    · exact ⟨i, hi, Or.inl h⟩
    · exact ⟨i, hi, Or.inr h⟩

/-- Inside and outside of the domain: an evaluation panics exactly where it is inside and does not
succeed. -/
theorem panic_iff {lo hi : ℝ} (hd : b.knotDomain = some (lo, hi)) {s : ℝ} {A : Prop}
    (hin : lo ≤ s → s ≤ hi → ((∃ q, b.eval s = .ok q) ↔ A) ∧
      ((∃ q, b.eval s = .ok q) ∨ b.eval s = .panic)) :
    b.eval s = .panic ↔ lo ≤ s ∧ s ≤ hi ∧ ¬ A := by
  by_cases h : lo ≤ s ∧ s ≤ hi
  · obtain ⟨e1, e2⟩ := hin h.1 h.2
    rw [← e1]
    constructor
    · intro hp
      exact ⟨h.1, h.2, fun ⟨q, hq⟩ => by rw [hp] at hq; simp at hq⟩
    · rintro ⟨_, _, hn⟩
      exact e2.resolve_left hn
  · have hout : s < lo ∨ hi < s := by
      by_contra hcon
      push Not at hcon
      exact h hcon
    rw [eval_err hd hout]
    simp only [reduceCtorEq, false_iff]
    exact fun h' => h ⟨h'.1, h'.2.1⟩

/-- **C132**, clamped at both ends: `arclen` returns a value for every number of steps. -/
theorem C132_partial (h : BSpline.new knots ps = .ok b) (hf : FrontClamped D knots)
    (hb : BackClamped D knots) (n : ℕ) : ∃ r, b.arclen n = some r := by
  obtain ⟨lo, hi, hd, _⟩ := C46_outside h
  refine Option.ne_none_iff_exists'.1 fun hn => ?_
  obtain ⟨s, _, hp⟩ := (arclen_none_iff b hd n).1 hn
  by_cases hin : lo ≤ s ∧ s ≤ hi
  · obtain ⟨q, hq⟩ := C47_clamped h hf hb hd hin.1 hin.2
    rw [hp] at hq
    simp at hq
  · rw [eval_err hd (by by_contra hcon; push Not at hcon; exact hin hcon)] at hp
    simp at hp

/-- **C132**, clamped at the end only: `arclen` panics for every number of steps, since it
starts at `knots[0]`. -/
theorem C132_back (h : BSpline.new knots ps = .ok b) (hf : ¬ FrontClamped D knots)
    (hb : BackClamped D knots) {n : ℕ} (_ : 1 ≤ n) : b.arclen n = none := by
  have hd := (C45_one_sided h).2 hf hb
  obtain ⟨⟨v1, v2, v3⟩, hbeq⟩ := (new_ok_iff _ _ _).1 h
  rw [arclen_none_iff b hd]
  refine ⟨knotAt knots 0, ⟨0, Nat.zero_le _, Or.inl (by simp)⟩, ?_⟩
  have hlt : knotAt knots 0 < knotAt knots D := by
    by_contra hcon
    refine hf ?_
    have e : ∀ i, i ≤ D → knotAt knots i = knotAt knots 0 := fun i hi =>
      le_antisymm ((mono_knotAt v3 hi (by omega)).trans (not_lt.1 hcon))
        (mono_knotAt v3 (Nat.zero_le _) (by omega))
    intro i hi
    rw [← knotAt_lt knots i.2, e i hi, sub_self, abs_zero]
    exact eps_pos
  have := C47_back_exact h hf hb (le_refl (knotAt knots 0)) (mono_knotAt v3 (Nat.zero_le _) (by omega))
  exact this.2.resolve_left fun hq => absurd (this.1.1 hq) (not_le.2 hlt)

/-- **C132**, clamped at the front only: `arclen` panics exactly when one of its parameters, other
than `knots[C]`, lies in `[knots[C+1], knots[K-1])`. -/
theorem C132_front (h : BSpline.new knots ps = .ok b) (hf : FrontClamped D knots)
    (hb : ¬ BackClamped D knots) (n : ℕ) :
    b.arclen n = none ↔ ∃ s, LengthSample (knotAt knots D) (knotAt knots (K - 1)) n s ∧
      knotAt knots (C + 1) ≤ s ∧ s < knotAt knots (K - 1) ∧ s ≠ knotAt knots C := by
  have hd := (C45_one_sided h).1 hf hb
  obtain ⟨v, hbeq⟩ := (new_ok_iff _ _ _).1 h
  have hD := degree_pos_of_not_back v hb
  obtain ⟨v1, v2, v3⟩ := id v
  rw [arclen_none_iff b hd]
  refine exists_congr fun s => and_congr_right fun _ => ?_
  rw [panic_iff hd (fun h1 h2 => C47_front_exact h hf hb h1 h2)]
  push Not
  constructor
  · rintro ⟨h1, h2, h3, h4, h5⟩
    exact ⟨h3, lt_of_le_of_ne h2 h5, h4⟩
  · rintro ⟨h3, h5, h4⟩
    exact ⟨(mono_knotAt v3 (by omega) (by omega)).trans h3, h5.le, h3, h4, h5.ne⟩

/-- **C132**, unclamped: `arclen` panics exactly when one of its parameters, in
`[knots[D], knots[C])`, is not to the left of `knots[p+1]` for any probe `p ≤ C` of the search. -/
theorem C132_unclamped (h : BSpline.new knots ps = .ok b) (hf : ¬ FrontClamped D knots)
    (hb : ¬ BackClamped D knots) (n : ℕ) :
    b.arclen n = none ↔ ∃ s, LengthSample (knotAt knots D) (knotAt knots C) n s ∧
      knotAt knots D ≤ s ∧ s < knotAt knots C ∧
      ∀ p, Probe K p → p ≤ C → knotAt knots (p + 1) ≤ s := by
  have hd : b.knotDomain = some (knotAt knots D, knotAt knots C) := by
    rw [knotDomain_eq h]
    simp [hf, hb]
  rw [arclen_none_iff b hd]
  refine exists_congr fun s => and_congr_right fun _ => ?_
  rw [panic_iff hd (fun h1 h2 => C47_unclamped_exact h hf hb h1 h2)]
  push Not
  constructor
  · rintro ⟨h1, h2, h3, h4⟩
    exact ⟨h1, lt_of_le_of_ne h2 h3, h4⟩
  · rintro ⟨h1, h2, h3⟩
    exact ⟨h1, h2.le, h2.ne, h3⟩

/-- Among equidistant parameters on `[lo, hi]` less than `w - v` apart one is in `[v, w)`. -/
theorem exists_sample {lo hi v w : ℝ} {n : ℕ} (hn : 1 ≤ n) (h1 : lo ≤ v) (h2 : v < w) (h3 : w ≤ hi)
    (hstep : hi - lo < n * (w - v)) : ∃ s, LengthSample lo hi n s ∧ v ≤ s ∧ s < w := by
  have hn0 : (0 : ℝ) < n := by exact_mod_cast hn
  have hL : 0 < hi - lo := by linarith
  have hx : 0 ≤ (v - lo) * n / (hi - lo) := by
    apply div_nonneg (mul_nonneg (by linarith) hn0.le) hL.le
  have a1 := Nat.le_ceil ((v - lo) * n / (hi - lo))
  have a2 := Nat.ceil_lt_add_one hx
  rw [div_le_iff₀ hL] at a1
  have a3 : (⌈(v - lo) * n / (hi - lo)⌉₊ : ℝ) * (hi - lo) < (w - lo) * n := by
    have : (⌈(v - lo) * n / (hi - lo)⌉₊ : ℝ) * (hi - lo)
        < ((v - lo) * n / (hi - lo) + 1) * (hi - lo) := mul_lt_mul_of_pos_right a2 hL
    rw [add_mul, div_mul_cancel₀ _ hL.ne'] at this
    linarith
  have e : (⌈(v - lo) * n / (hi - lo)⌉₊ : ℝ) / n * (hi - lo)
      = (⌈(v - lo) * n / (hi - lo)⌉₊ : ℝ) * (hi - lo) / n := by ring
  refine ⟨_, ⟨⌈(v - lo) * n / (hi - lo)⌉₊, ?_, Or.inl rfl⟩, ?_, ?_⟩
  · have : (⌈(v - lo) * n / (hi - lo)⌉₊ : ℝ) < n := by
      by_contra hcon
      have := mul_le_mul_of_nonneg_right (not_lt.1 hcon) hL.le
      nlinarith [mul_le_mul_of_nonneg_left (show w - lo ≤ hi - lo by linarith) hn0.le]
    exact_mod_cast this.le
  · rw [e]
    have : v - lo ≤ (⌈(v - lo) * n / (hi - lo)⌉₊ : ℝ) * (hi - lo) / n := by
      rw [le_div_iff₀ hn0]
      exact a1
    linarith
  · rw [e]
    have : (⌈(v - lo) * n / (hi - lo)⌉₊ : ℝ) * (hi - lo) / n < w - lo := by
      rw [div_lt_iff₀ hn0]
      exact a3
    linarith

/-- **C132**, clamped at the front only: as soon as the steps are shorter than
`knots[K-1] − knots[C+1]`, `arclen` panics. -/
theorem C132_front_fine (h : BSpline.new knots ps = .ok b) (hf : FrontClamped D knots)
    (hb : ¬ BackClamped D knots) (hC : knotAt knots C < knotAt knots (C + 1)) {n : ℕ} (hn : 1 ≤ n)
    (hstep : knotAt knots (K - 1) - knotAt knots D
      < n * (knotAt knots (K - 1) - knotAt knots (C + 1))) : b.arclen n = none := by
  obtain ⟨v, _⟩ := (new_ok_iff _ _ _).1 h
  have hD := degree_pos_of_not_back v hb
  obtain ⟨v1, v2, v3⟩ := v
  have hlt : knotAt knots (C + 1) < knotAt knots (K - 1) := by
    by_contra hcon
    have h0 : (n : ℝ) * (knotAt knots (K - 1) - knotAt knots (C + 1)) ≤ 0 :=
      mul_nonpos_of_nonneg_of_nonpos (Nat.cast_nonneg _) (by linarith)
    have := mono_knotAt v3 (show D ≤ K - 1 by omega) (by omega)
    linarith
  obtain ⟨s, h1, h2, h3⟩ := exists_sample hn (mono_knotAt v3 (show D ≤ C + 1 by omega) (by omega))
    hlt le_rfl hstep
  exact (C132_front h hf hb n).2 ⟨s, h1, h2, h3, fun e => by linarith⟩

/-- **C132**, clamped at the front only: degree 1 is fine for every number of steps. -/
theorem C132_front_linear {knots : Arr ℝ K} {b : BSpline ℝ P K C 1}
    (h : BSpline.new knots ps = .ok b) (hf : FrontClamped 1 knots) (hb : ¬ BackClamped 1 knots)
    (n : ℕ) : ∃ r, b.arclen n = some r := by
  obtain ⟨⟨v1, v2, v3⟩, _⟩ := (new_ok_iff _ _ _).1 h
  have := (not_congr (C132_front h hf hb n)).2 (by
    rintro ⟨s, _, h1, h2, _⟩
    rw [show K - 1 = C + 1 by omega] at h2
    linarith)
  exact Option.ne_none_iff_exists'.1 this

/-- **C132** is false of the code: `BSpline::arclen` panics for splines the constructor accepts.
Degree 2 with the knots 0 1 2 3 3 3 (every number of steps) and 0 0 0 1 2 3 (four steps or more). -/
theorem C132_false (ps : Arr P 3) :
    (∃ b : BSpline ℝ P 6 3 2, BSpline.new ![0, 1, 2, 3, 3, 3] ps = .ok b ∧
      ∀ n, 1 ≤ n → b.arclen n = none) ∧
    (∃ b : BSpline ℝ P 6 3 2, BSpline.new ![0, 0, 0, 1, 2, 3] ps = .ok b ∧
      ∀ n, 4 ≤ n → b.arclen n = none) := by
  constructor
  · obtain ⟨b, hb⟩ := (C43_accepts (D := 2) _ ps).2 valid_012333
    exact ⟨b, hb, fun n hn => C132_back hb not_front_012333 back_012333 hn⟩
  · obtain ⟨b, hb⟩ := (C43_accepts (D := 2) _ ps).2 valid_000123
    refine ⟨b, hb, fun n hn => C132_front_fine hb front_000123 not_back_000123 ?_ (by omega) ?_⟩
    · norm_num [knotAt]
    · have : (4 : ℝ) ≤ n := by exact_mod_cast hn
      norm_num [knotAt]
      linarith

/-- `C132_unclamped` at work: degree 2 over the knots 0, 1, ..., 8 with four steps, one of which
starts at 5 where no probe of the search is left. -/
example (ps : Arr P 6) : ∃ b : BSpline ℝ P 9 6 2, BSpline.new (uniformKnots 9) ps = .ok b ∧
    b.arclen 4 = none := by
  obtain ⟨b, hb⟩ := (C43_accepts (D := 2) _ ps).2
    (valid_uniform (K := 9) (C := 6) (by norm_num) (by norm_num))
  refine ⟨b, hb, (C132_unclamped hb
    (not_front_uniform (C := 6) (by norm_num) (by norm_num) (by norm_num))
    (not_back_uniform (C := 6) (by norm_num) (by norm_num) (by norm_num)) 4).2
    ⟨5, ⟨3, by norm_num, Or.inl ?_⟩, ?_, ?_, fun p hp hpC => ?_⟩⟩
  · rw [knotAt_uniform (by norm_num), knotAt_uniform (by norm_num)]; norm_num
  · rw [knotAt_uniform (by norm_num)]; norm_num
  · rw [knotAt_uniform (by norm_num)]; norm_num
  · have : p = 4 := by
      have h4 : p = 4 ∨ 7 ≤ p := by
        induction hp with
        | first => exact Or.inl rfl
        | next _ ih => omega
      omega
    subst this
    rw [knotAt_uniform (by norm_num)]; norm_num

/-- `C132_front_linear` at work. -/
example (ps : Arr P 2) : ∃ b : BSpline ℝ P 4 2 1, BSpline.new ![0, 0, 1, 2] ps = .ok b ∧
    ∀ n, ∃ r, b.arclen n = some r := by
  have v : ValidSpline 2 1 (![0, 0, 1, 2] : Fin 4 → ℝ) := by
    refine ⟨by norm_num, by norm_num, ?_⟩
    intro i j h
    fin_cases i <;> fin_cases j <;> first | exact absurd h (by decide) | norm_num
  obtain ⟨b, hb⟩ := (C43_accepts (D := 1) _ ps).2 v
  refine ⟨b, hb, fun n => C132_front_linear hb ?_ ?_ n⟩
  · rw [frontClamped_iff v]
    norm_num [knotAt, eps]
  · rw [backClamped_iff v]
    norm_num [knotAt, eps]

end Exact

section Float
open Fl
variable {F : FloatFormat} {P : Type} [Point (Fl F) P] {K C D : ℕ} {knots : Arr (Fl F) K}
  {ps : Arr P C} {b : BSpline (Fl F) P K C D}

/-- **C132** (floats), clamped at the end only (up to the machine epsilon, as the constructor
computes it): for finite knots `arclen` panics, whatever the number of steps; `C99_no_steps` is the
exception of zero steps. -/
theorem C132_float_back (h : BSpline.new knots ps = .ok b) (hk : FiniteKnots knots)
    (hspan : ∀ i j : Fin K, (knots j).toReal - (knots i).toReal ≤ F.max)
    (hf : ¬ NearFront D knots) (hb : NearBack D knots) {n : ℕ} (hn : 1 ≤ n)
    (hmax : (n : ℝ) ≤ F.max) : b.arclen n = none := by
  have hD : 1 ≤ D := by
    by_contra h0
    exact hf (near_zero hk (by omega)).1
  obtain ⟨v1, v2, v3, hbeq⟩ := (new_generic _ _ _).1 h
  have hm := knots_mono h hk
  rw [C132_panics_iff b (domain_back h hf hb (by omega) (by omega))]
  obtain ⟨o0, e0⟩ := fin_knot hk (show 0 < K by omega)
  obtain ⟨oC, eC⟩ := fin_knot hk (show C < K by omega)
  refine ⟨0, Nat.zero_le _, Or.inl ?_⟩
  have hn1 : (1 : ℝ) ≤ n := by exact_mod_cast hn
  have hrn : 0 < F.rnd (n : ℝ) := by
    have := F.rnd_mono hn1
    rw [F.rnd_of_mem 1 F.one_ok.1] at this
    linarith
  have hz : (Scalar.ofUsize 0 : Fl F) = fin 0 F.zero_ok := by
    show F.round ((0 : ℕ) : ℝ) = _
    rw [Nat.cast_zero, F.round_of_mem F.zero_ok]
  have hN : (Scalar.ofUsize n : Fl F) = F.round (n : ℝ) := rfl
  have hgap : |knotAt (fun i => (knots i).toReal) C - knotAt (fun i => (knots i).toReal) 0|
      ≤ F.max := by
    rw [abs_of_nonneg (sub_nonneg.2 (hm 0 C (by omega) (by omega)))]
    rw [knotAt_lt _ (show C < K by omega), knotAt_lt _ (show 0 < K by omega)]
    exact hspan _ _
  have et : (knots ⟨0, by omega⟩ + Scalar.ofUsize 0 / Scalar.ofUsize n
      * (knots ⟨C, by omega⟩ - knots ⟨0, by omega⟩) : Fl F)
      = fin (knotAt (fun i => (knots i).toReal) 0) o0 := by
    rw [hz, hN, F.round_of_le (by rwa [abs_of_nonneg (by linarith)]), fin_div hrn.ne', zero_div,
      F.round_of_mem F.zero_ok, e0, eC, fin_sub, F.round_of_le hgap, fin_mul, zero_mul,
      F.round_of_mem F.zero_ok, fin_add, add_zero, F.round_of_mem o0]
  rw [et]
  have hlt : knotAt (fun i => (knots i).toReal) 0 < knotAt (fun i => (knots i).toReal) D := by
    by_contra hcon
    refine hf fun i j hi hj => ?_
    obtain ⟨oi, ei⟩ := fin_knot hk i.2
    have ej : knots j = fin (knotAt (fun i => (knots i).toReal) 0) o0 := by
      rw [← e0]
      congr 1
      exact Fin.ext hj
    have e : knotAt (fun i => (knots i).toReal) i.val = knotAt (fun i => (knots i).toReal) 0 :=
      le_antisymm ((hm i.val D hi (by omega)).trans (not_lt.1 hcon)) (hm 0 i.val (by omega) i.2)
    rw [show knots i = knots ⟨i.val, i.2⟩ from rfl, ei, ej, fin_sub, e, sub_self,
      F.round_of_mem F.zero_ok]
    obtain ⟨oa, ea⟩ := abs_fin' (ha := F.zero_ok)
    rw [ea, epsilon_eq, lt_fin]
    simpa using F.epsilon_pos
  have := C47_float_back h hk hspan hf hb o0 le_rfl (hm 0 C (by omega) (by omega))
  exact this.2.resolve_left fun hq => absurd (this.1.1 hq) (not_le.2 hlt)

/-- The hypotheses of `C132_float_back` hold: the knots 0 1 2 3 4 4 4, of degree 2. -/
example (hmax : (100 : ℝ) ≤ F.max) : ∃ b : BSpline (Fl F) (PointN (Fl F) 2) 7 4 2,
    b.arclen 100 = none := by
  obtain ⟨k₁, k₂, k₃, k₄, ⟨f1, f2, f3, f4⟩, n1, n2, ⟨nf3, nb3⟩, n4, hnew⟩ :=
    float_kinds_witness (F := F)
  obtain ⟨⟨b₃, h3⟩, s3⟩ := hnew k₃ (by simp)
  exact ⟨b₃, C132_float_back h3 f3 s3 nf3 nb3 (by norm_num) (by exact_mod_cast hmax)⟩

/-- The floats at which `arclen` with `n` steps evaluates a spline on `[lo, hi]`, with all
roundings. -/
def FloatLengthSample (lo hi : Fl F) (n : ℕ) (s : Fl F) : Prop :=
  ∃ i : ℕ, i ≤ n ∧ (s = lo + Scalar.ofUsize i / Scalar.ofUsize n * (hi - lo) ∨
    s = lo + Scalar.ofUsize i / Scalar.ofUsize n * (hi - lo) + lit 1 / Scalar.ofUsize n)

theorem float_arclen_none_iff (h : BSpline.new knots ps = .ok b) (hk : FiniteKnots knots)
    {lo hi : ℝ} {hlo : lo ∈ F.grid ∧ |lo| ≤ F.max} {hhi : hi ∈ F.grid ∧ |hi| ≤ F.max}
    (hd : b.knotDomain = some (fin lo hlo, fin hi hhi)) {A : ℝ → Prop}
    (hin : ∀ (r : ℝ) (hr : r ∈ F.grid ∧ |r| ≤ F.max), lo ≤ r → r ≤ hi →
      ((∃ q, b.eval (fin r hr) = .ok q) ↔ A r) ∧
      ((∃ q, b.eval (fin r hr) = .ok q) ∨ b.eval (fin r hr) = .panic)) (n : ℕ) :
    b.arclen n = none ↔ ∃ (r : ℝ) (hr : r ∈ F.grid ∧ |r| ≤ F.max),
      FloatLengthSample (fin lo hlo) (fin hi hhi) n (fin r hr) ∧ lo ≤ r ∧ r ≤ hi ∧ ¬ A r := by
  obtain ⟨lo', hi', hd', -, hout⟩ := C46_float h hk
  rw [hd, Option.some.injEq, Prod.mk.injEq] at hd'
  obtain ⟨rfl, rfl⟩ := hd'
  have key : ∀ s : Fl F, b.eval s = .panic ↔ ∃ (r : ℝ) (hr : r ∈ F.grid ∧ |r| ≤ F.max),
      s = fin r hr ∧ lo ≤ r ∧ r ≤ hi ∧ ¬ A r := by
    intro s
    constructor
    · intro hp
      cases hle : (Scalar.le (fin lo hlo) s && Scalar.le s (fin hi hhi)) with
      | false =>
        rw [hout s hle] at hp
        simp at hp
      | true =>
        rw [Bool.and_eq_true] at hle
        cases s with
        | nan => simp at hle
        | inf sg =>
          exfalso
          cases sg
          · have : decide ((⊤ : EReal) ≤ ((hi : ℝ) : EReal)) = true := hle.2
            simp at this
          · have : decide (((lo : ℝ) : EReal) ≤ ⊥) = true := hle.1
            simp at this
        | fin r hr =>
          rw [le_fin, le_fin] at hle
          refine ⟨r, hr, rfl, hle.1, hle.2, fun ha => ?_⟩
          obtain ⟨q, hq⟩ := (hin r hr hle.1 hle.2).1.2 ha
          rw [hp] at hq
          simp at hq
    · rintro ⟨r, hr, rfl, h1, h2, h3⟩
      exact (hin r hr h1 h2).2.resolve_left fun hq => h3 ((hin r hr h1 h2).1.1 hq)
  rw [C132_panics_iff b hd]
  simp only [key, FloatLengthSample]
  constructor
  · rintro ⟨i, hi, ⟨r, hr, e, hh⟩ | ⟨r, hr, e, hh⟩⟩
    · exact ⟨r, hr, ⟨i, hi, Or.inl e.symm⟩, hh⟩
    · exact ⟨r, hr, ⟨i, hi, Or.inr e.symm⟩, hh⟩
  · rintro ⟨r, hr, ⟨i, hi, e | e⟩, hh⟩
    · exact ⟨i, hi, Or.inl ⟨r, hr, e.symm, hh⟩⟩
    · exact ⟨i, hi, Or.inr ⟨r, hr, e.symm, hh⟩⟩

/-- **C132** (floats), clamped at both ends up to the machine epsilon: for finite knots `arclen`
returns a value, whatever the number of steps and the control points. -/
theorem C132_float_both (h : BSpline.new knots ps = .ok b) (hk : FiniteKnots knots)
    (hspan : ∀ i j : Fin K, (knots j).toReal - (knots i).toReal ≤ F.max)
    (hf : NearFront D knots) (hb : NearBack D knots) (n : ℕ) : ∃ r, b.arclen n = some r := by
  obtain ⟨v1, v2, v3, hbeq⟩ := (new_generic _ _ _).1 h
  have hd := domain_both h hf hb (show D < K by omega) (show C < K by omega)
  obtain ⟨oD, eD⟩ := fin_knot hk (show D < K by omega)
  obtain ⟨oC, eC⟩ := fin_knot hk (show C < K by omega)
  rw [eD, eC] at hd
  refine Option.ne_none_iff_exists'.1 fun hn => ?_
  rw [float_arclen_none_iff h hk hd (A := fun _ => True) (fun r hr h1 h2 => by
    have := C47_float_both h hk hspan hf hb hr h1 h2
    exact ⟨⟨fun _ => trivial, fun _ => this⟩, Or.inl this⟩)] at hn
  obtain ⟨_, _, _, _, _, hh⟩ := hn
  exact hh trivial

/-- **C132** (floats), clamped at the front only: `arclen` panics exactly when one of the floats it
evaluates at, other than `knots[C]`, lies in `[knots[C+1], knots[K-1])`. -/
theorem C132_float_front (h : BSpline.new knots ps = .ok b) (hk : FiniteKnots knots)
    (hspan : ∀ i j : Fin K, (knots j).toReal - (knots i).toReal ≤ F.max)
    (hf : NearFront D knots) (hb : ¬ NearBack D knots) (hD : D < K) (hK : K - 1 < K) (n : ℕ) :
    b.arclen n = none ↔ ∃ (r : ℝ) (hr : r ∈ F.grid ∧ |r| ≤ F.max),
      FloatLengthSample (knots ⟨D, hD⟩) (knots ⟨K - 1, hK⟩) n (fin r hr) ∧
      knotAt (fun i => (knots i).toReal) (C + 1) ≤ r ∧
      r < knotAt (fun i => (knots i).toReal) (K - 1) ∧
      r ≠ knotAt (fun i => (knots i).toReal) C := by
  obtain ⟨v1, v2, v3, hbeq⟩ := (new_generic _ _ _).1 h
  have hD1 : 1 ≤ D := by
    by_contra h0
    exact hb (near_zero hk (by omega)).2
  have hm := knots_mono h hk
  have hd := domain_front h hf hb hD hK
  obtain ⟨oD, eD⟩ := fin_knot hk hD
  obtain ⟨oL, eL⟩ := fin_knot hk hK
  rw [eD, eL] at hd
  rw [float_arclen_none_iff h hk hd
    (fun r hr h1 h2 => C47_float_front h hk hspan hf hb hr h1 h2), eD, eL]
  refine exists_congr fun r => exists_congr fun hr => and_congr_right fun _ => ?_
  push Not
  constructor
  · rintro ⟨h1, h2, h3, h4, h5⟩
    exact ⟨h3, lt_of_le_of_ne h2 h5, h4⟩
  · rintro ⟨h3, h5, h4⟩
    exact ⟨(hm D (C + 1) (by omega) (by omega)).trans h3, h5.le, h3, h4, h5.ne⟩

/-- **C132** (floats), unclamped: `arclen` panics exactly when one of the floats it evaluates at, in
`[knots[D], knots[C])`, is not to the left of `knots[p+1]` for any probe `p ≤ C` of the search. -/
theorem C132_float_unclamped (h : BSpline.new knots ps = .ok b) (hk : FiniteKnots knots)
    (hspan : ∀ i j : Fin K, (knots j).toReal - (knots i).toReal ≤ F.max)
    (hf : ¬ NearFront D knots) (hb : ¬ NearBack D knots) (hD : D < K) (hC : C < K) (n : ℕ) :
    b.arclen n = none ↔ ∃ (r : ℝ) (hr : r ∈ F.grid ∧ |r| ≤ F.max),
      FloatLengthSample (knots ⟨D, hD⟩) (knots ⟨C, hC⟩) n (fin r hr) ∧
      knotAt (fun i => (knots i).toReal) D ≤ r ∧ r < knotAt (fun i => (knots i).toReal) C ∧
      ∀ p, Probe K p → p ≤ C → knotAt (fun i => (knots i).toReal) (p + 1) ≤ r := by
  have hd := domain_none h hf hb hD hC
  obtain ⟨oD, eD⟩ := fin_knot hk hD
  obtain ⟨oC, eC⟩ := fin_knot hk hC
  rw [eD, eC] at hd
  rw [float_arclen_none_iff h hk hd
    (fun r hr h1 h2 => C47_float_unclamped h hk hspan hf hb hr h1 h2), eD, eC]
  refine exists_congr fun r => exists_congr fun hr => and_congr_right fun _ => ?_
  push Not
  constructor
  · rintro ⟨h1, h2, h3, h4⟩
    exact ⟨h1, lt_of_le_of_ne h2 h3, h4⟩
  · rintro ⟨h1, h2, h3⟩
    exact ⟨h1, h2.le, h2.ne, h3⟩

/-- The hypotheses of the three theorems hold of splines of degree 2 with seven knots. -/
example : ∃ k₁ k₂ k₄ : Arr (Fl F) 7,
    (∃ b : BSpline (Fl F) (PointN (Fl F) 2) 7 4 2,
      BSpline.new k₁ (fun _ => PointN.new fun _ => lit 3) = .ok b ∧ ∀ n, ∃ r, b.arclen n = some r) ∧
    (NearFront 2 k₂ ∧ ¬ NearBack 2 k₂ ∧ FiniteKnots k₂ ∧ ∃ b : BSpline (Fl F) (PointN (Fl F) 2) 7 4 2,
      BSpline.new k₂ (fun _ => PointN.new fun _ => lit 3) = .ok b) ∧
    (¬ NearFront 2 k₄ ∧ ¬ NearBack 2 k₄ ∧ FiniteKnots k₄ ∧
      ∃ b : BSpline (Fl F) (PointN (Fl F) 2) 7 4 2,
        BSpline.new k₄ (fun _ => PointN.new fun _ => lit 3) = .ok b) := by
  obtain ⟨k₁, k₂, k₃, k₄, ⟨f1, f2, f3, f4⟩, n1, n2, n3, n4, hnew⟩ := float_kinds_witness (F := F)
  obtain ⟨⟨b₁, h1⟩, s1⟩ := hnew k₁ (by simp)
  exact ⟨k₁, k₂, k₄, ⟨b₁, h1, fun n => C132_float_both h1 f1 s1 n1.1 n1.2 n⟩,
    ⟨n2.1, n2.2, f2, (hnew k₂ (by simp)).1⟩, ⟨n4.1, n4.2, f4, (hnew k₄ (by simp)).1⟩⟩

end Float

end Stroke
