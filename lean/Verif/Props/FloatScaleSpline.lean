import Verif.Props.FloatScale
import Verif.Props.BSplineLength

/-!
# Changing the units of a B-spline by powers of two (C140)

The units of length and of the parameter of a B-spline, in floating point: scaling the control
points by `2^k` scales computed points and lengths by exactly `2^k`; scaling the knots and the
parameter by `2^k` changes nothing at all, as long as the knots are multiples of a number that is not
below the tolerance.  Both hold whether the call succeeds, returns an error or panics.
-/

set_option linter.unusedSectionVars false

namespace Stroke

open Fl

variable {F : FloatFormat} {n K C D : ℕ}

/-! ### Runs in step -/

/-- Two calls end in the same way, with related results. -/
def OutRel {α β : Type} (R : α → β → Prop) : Outcome α → Outcome β → Prop
  | .ok a, .ok b => R a b
  | .err e, .err e' => e = e'
  | .panic, .panic => True
  | _, _ => False

theorem OutRel.bind {α β α' β' : Type} {R : α → β → Prop} {Q : α' → β' → Prop} {x : Outcome α}
    {y : Outcome β} {f : α → Outcome α'} {g : β → Outcome β'} (h : OutRel R x y)
    (hf : ∀ a b, R a b → OutRel Q (f a) (g b)) : OutRel Q (x >>= f) (y >>= g) := by
  cases x <;> cases y <;> first | exact h.elim | exact hf _ _ h | exact h

theorem OutRel.mono {α β : Type} {R Q : α → β → Prop} {x : Outcome α} {y : Outcome β}
    (h : OutRel R x y) (hf : ∀ a b, R a b → Q a b) : OutRel Q x y := by
  cases x <;> cases y <;> first | exact h.elim | exact hf _ _ h | exact h

theorem OutRel.forRange {σ τ : Type} (I : ℕ → σ → τ → Prop) {lo hi : ℕ} {s : σ} {s' : τ}
    {body : ℕ → σ → Outcome σ} {body' : ℕ → τ → Outcome τ} (hle : lo ≤ hi) (h0 : I lo s s')
    (hstep : ∀ i s s', lo ≤ i → i < hi → I i s s' → OutRel (I (i + 1)) (body i s) (body' i s')) :
    OutRel (I hi) (Stroke.forRange lo hi s body) (Stroke.forRange lo hi s' body') := by
  induction hi with
  | zero =>
    have : lo = 0 := by omega
    subst this
    rw [forRange_empty le_rfl, forRange_empty le_rfl]
    exact h0
  | succ hi ih =>
    rcases Nat.eq_or_lt_of_le hle with h | h
    · subst h
      rw [forRange_empty le_rfl, forRange_empty le_rfl]
      exact h0
    · have hle' : lo ≤ hi := by omega
      rw [forRange_succ hle', forRange_succ hle']
      exact (ih hle' fun i s s' h1 h2 => hstep i s s' h1 (by omega)).bind fun a b hab =>
        hstep hi a b hle' (by omega) hab

theorem OutRel.forRangeRev {σ τ : Type} (I : ℕ → σ → τ → Prop) {lo hi : ℕ} {s : σ} {s' : τ}
    {body : ℕ → σ → Outcome σ} {body' : ℕ → τ → Outcome τ} (hle : lo ≤ hi) (h0 : I hi s s')
    (hstep : ∀ i s s', lo ≤ i → i < hi → I (i + 1) s s' → OutRel (I i) (body i s) (body' i s')) :
    OutRel (I lo) (Stroke.forRangeRev lo hi s body) (Stroke.forRangeRev lo hi s' body') := by
  induction hi generalizing s s' with
  | zero =>
    have : lo = 0 := by omega
    subst this
    rw [forRangeRev_empty le_rfl, forRangeRev_empty le_rfl]
    exact h0
  | succ hi ih =>
    rcases Nat.eq_or_lt_of_le hle with h | h
    · subst h
      rw [forRangeRev_empty le_rfl, forRangeRev_empty le_rfl]
      exact h0
    · have hle' : lo ≤ hi := by omega
      rw [forRangeRev_first hle', forRangeRev_first hle']
      exact (hstep hi s s' hle' (by omega) h0).bind fun a b hab =>
        ih hle' hab fun i s s' h1 h2 => hstep i s s' h1 (by omega)

/-- The same for computations that can only panic. -/
def OptRel {α β : Type} (R : α → β → Prop) : Option α → Option β → Prop
  | some a, some b => R a b
  | none, none => True
  | _, _ => False

theorem OptRel.bind {α β α' β' : Type} {R : α → β → Prop} {Q : α' → β' → Prop} {x : Option α}
    {y : Option β} {f : α → Option α'} {g : β → Option β'} (h : OptRel R x y)
    (hf : ∀ a b, R a b → OptRel Q (f a) (g b)) : OptRel Q (x >>= f) (y >>= g) := by
  cases x <;> cases y <;> first | exact h.elim | exact hf _ _ h | exact h

theorem OptRel.mono {α β : Type} {R Q : α → β → Prop} {x : Option α} {y : Option β}
    (h : OptRel R x y) (hf : ∀ a b, R a b → Q a b) : OptRel Q x y := by
  cases x <;> cases y <;> first | exact h.elim | exact hf _ _ h | exact h

theorem OptRel.ofOption {α β : Type} {R : α → β → Prop} {x : Option α} {y : Option β}
    (h : OptRel R x y) : OutRel R (Outcome.ofOption x) (Outcome.ofOption y) := by
  cases x <;> cases y <;> exact h

theorem OptRel.refl {α : Type} (x : Option α) : OptRel Eq x x := by
  cases x <;> trivial

theorem OutRel.refl {α : Type} (x : Outcome α) : OutRel Eq x x := by
  cases x <;> trivial

theorem OptRel.forRange {σ τ : Type} (I : ℕ → σ → τ → Prop) {lo hi : ℕ} {s : σ} {s' : τ}
    {body : ℕ → σ → Option σ} {body' : ℕ → τ → Option τ} (hle : lo ≤ hi) (h0 : I lo s s')
    (hstep : ∀ i s s', lo ≤ i → i < hi → I i s s' → OptRel (I (i + 1)) (body i s) (body' i s')) :
    OptRel (I hi) (Stroke.forRange lo hi s body) (Stroke.forRange lo hi s' body') := by
  induction hi with
  | zero =>
    have : lo = 0 := by omega
    subst this
    rw [forRange_empty le_rfl, forRange_empty le_rfl]
    exact h0
  | succ hi ih =>
    rcases Nat.eq_or_lt_of_le hle with h | h
    · subst h
      rw [forRange_empty le_rfl, forRange_empty le_rfl]
      exact h0
    · have hle' : lo ≤ hi := by omega
      rw [forRange_succ hle', forRange_succ hle']
      exact (ih hle' fun i s s' h1 h2 => hstep i s s' h1 (by omega)).bind fun a b hab =>
        hstep hi a b hle' (by omega) hab

theorem Arr.get?_rel {α β : Type} {N : ℕ} {R : α → β → Prop} {x : Arr α N} {y : Arr β N} (i : ℕ)
    (h : ∀ hi : i < N, R (x ⟨i, hi⟩) (y ⟨i, hi⟩)) : OptRel R (x.get? i) (y.get? i) := by
  unfold Arr.get?
  split
  · exact h _
  · trivial

/-! ### The interpolation factor -/

section

variable {p : ℕ} {low top : ℤ} {k m b e B g : ℤ}

/-- Rounding a number of moderate size. -/
theorem round_bounded (hF : F.Binary p low top) {r : ℝ} {c : ℤ} (h : |r| ≤ 2 ^ c) (h1 : low ≤ c)
    (h2 : c ≤ top) : ∃ hz, F.round r = fin (F.rnd r) hz ∧ |F.rnd r| ≤ 2 ^ c := by
  have l1 : |F.rnd r| ≤ 2 ^ c := F.abs_rnd_le (hF.two_mem h1) h
  have l2 : |F.rnd r| ≤ F.max := l1.trans ((two_zpow_mono h2).trans hF.top_le)
  exact ⟨_, F.round_of_rnd_le l2, l1⟩

/-- Knots and a parameter that are finite and at most `2^B` in size; `e` is such that the difference
of two of them, when it is not below the tolerance, is at least `2^e`. -/
structure KnotRange (p : ℕ) (B e : ℤ) (knots : Arr (Fl F) K) (t : Fl F) : Prop where
  knots_fin : ∀ i, (knots i).IsFinite
  knots_le : ∀ i, |(knots i).toReal| ≤ 2 ^ B
  t_fin : t.IsFinite
  t_le : |t.toReal| ≤ 2 ^ B
  gap : e ≤ 1 - p ∨ (∀ i, IsMultiple e (knots i).toReal) ∧ IsMultiple e t.toReal

theorem diff_bounds (hF : F.Binary p low top) (heps : F.epsilon = 2 ^ (1 - (p : ℤ)))
    {x y : Fl F} (hx : x.IsFinite) (hy : y.IsFinite) (bx : |x.toReal| ≤ 2 ^ B)
    (by' : |y.toReal| ≤ 2 ^ B) (gap : e ≤ 1 - p ∨ IsMultiple e x.toReal ∧ IsMultiple e y.toReal)
    (h1 : low ≤ B + 1) (h2 : B + 1 ≤ top) :
    ∃ r hr, x - y = fin r hr ∧ |r| ≤ 2 ^ (B + 1) ∧ (F.epsilon ≤ |r| → (2 : ℝ) ^ e ≤ |r|) := by
  obtain ⟨u, hu, rfl⟩ := isFinite_iff.1 hx
  obtain ⟨v, hv, rfl⟩ := isFinite_iff.1 hy
  simp only [toReal_fin] at bx by' gap
  have l : |u - v| ≤ 2 ^ (B + 1) := by
    rw [zpow_add₀ (by norm_num), zpow_one]
    have := abs_sub u v
    linarith
  obtain ⟨hz, ez, lz⟩ := round_bounded hF l h1 h2
  refine ⟨_, hz, by rw [fin_sub, ez], lz, fun he => ?_⟩
  rcases gap with g | ⟨g1, g2⟩
  · exact (two_zpow_mono g).trans (heps ▸ he)
  · refine (hF.multiple e _ (g1.sub g2)).le_abs fun h0 => ?_
    rw [h0, abs_zero] at he
    exact absurd F.epsilon_pos (not_lt.2 he)

/-- `alpha` never makes the difference of two runs. -/
theorem alpha_onGrid (hF : F.Binary p low top) (heps : F.epsilon = 2 ^ (1 - (p : ℤ)))
    {knots : Arr (Fl F) K} {t : Fl F} (hk : KnotRange p B e knots t) (h1 : low ≤ B + 1)
    (h2 : B + 1 ≤ top) (hg : B + 1 - e ≤ g) (g0 : 0 ≤ g) (h3 : low ≤ -(g + p)) (h4 : g ≤ top)
    (i r j : ℕ) :
    OutRel (fun a a' => a = a' ∧ OnGrid (-(g + p)) g a) (BSpline.alpha (D := D) knots t i r j)
      (BSpline.alpha (D := D) knots t i r j) := by
  unfold BSpline.alpha
  have get : ∀ o : Option ℕ, OptRel (fun x y : Fl F => x = y ∧ x.IsFinite ∧ |x.toReal| ≤ 2 ^ B ∧
      (e ≤ 1 - p ∨ IsMultiple e x.toReal)) (do knots.get? (← o)) (do knots.get? (← o)) := by
    intro o
    refine (OptRel.refl o).bind fun a b hab => ?_
    subst hab
    exact Arr.get?_rel _ fun h => ⟨rfl, hk.knots_fin _, hk.knots_le _,
      hk.gap.imp id fun x => x.1 _⟩
  refine (get _).ofOption.bind ?_
  rintro kl _ ⟨rfl, fl, bl, gl⟩
  refine (get _).ofOption.bind ?_
  rintro kr _ ⟨rfl, fr, br, gr⟩
  have gt : e ≤ 1 - p ∨ IsMultiple e t.toReal := hk.gap.imp id fun x => x.2
  have both : ∀ {x y : Fl F}, (e ≤ 1 - p ∨ IsMultiple e x.toReal) →
      (e ≤ 1 - p ∨ IsMultiple e y.toReal) →
      (e ≤ 1 - p ∨ IsMultiple e x.toReal ∧ IsMultiple e y.toReal) := by tauto
  obtain ⟨u, hu, eu, lu, gu⟩ := diff_bounds hF heps hk.t_fin fl hk.t_le bl (both gt gl) h1 h2
  obtain ⟨v, hv, ev, lv, gv⟩ := diff_bounds hF heps fr fl br bl (both gr gl) h1 h2
  dsimp only
  rw [eu, ev, epsilon_eq]
  have zero : OnGrid (-(g + p)) g (lit 0 : Fl F) := by
    rw [lit_zero]
    exact ⟨trivial, isMultiple_zero _, by simp; positivity⟩
  have one : OnGrid (-(g + p)) g (lit 1 : Fl F) :=
    onGrid_lit1.mono (by omega) g0
  have key : ∀ a : Fl F, OnGrid (-(g + p)) g a →
      OutRel (fun a a' => a = a' ∧ OnGrid (-(g + p)) g a)
        (if Scalar.isNaN a = true then .err .EvaluationAlphaIsNaN else pure a)
        (if Scalar.isNaN a = true then .err .EvaluationAlphaIsNaN else pure a) := by
    intro a ha
    split
    · rfl
    · exact ⟨rfl, ha⟩
  apply key
  split
  · exact zero
  · split
    · exact one
    · rename_i c1 c2
      have c1' : F.epsilon ≤ u := by
        rw [lt_fin] at c1
        exact not_lt.1 c1
      have c2' : F.epsilon ≤ |v| := by
        have : ¬ |v| < F.epsilon := fun h => c2 (lt_fin.2 h)
        exact not_lt.1 this
      have v0 : v ≠ 0 := by
        rintro rfl
        rw [abs_zero] at c2'
        exact absurd F.epsilon_pos (not_lt.2 c2')
      have pu := gu (c1'.trans (le_abs_self u))
      have pv := gv c2'
      have v1 : 0 < |v| := abs_pos.2 v0
      rw [fin_div v0]
      have q1 : |u / v| ≤ 2 ^ g := by
        rw [abs_div, div_le_iff₀ v1]
        calc |u| ≤ 2 ^ (B + 1) := lu
          _ ≤ 2 ^ (g + e) := two_zpow_mono (by omega)
          _ = 2 ^ g * 2 ^ e := zpow_add₀ (by norm_num) _ _
          _ ≤ 2 ^ g * |v| := by gcongr
      have q2 : (2 : ℝ) ^ (-g) ≤ |u / v| := by
        rw [abs_div, le_div_iff₀ v1]
        calc (2 : ℝ) ^ (-g) * |v| ≤ 2 ^ (-g) * 2 ^ (B + 1) := by gcongr
          _ = 2 ^ (-g + (B + 1)) := (zpow_add₀ (by norm_num) _ _).symm
          _ ≤ 2 ^ e := two_zpow_mono (by omega)
          _ ≤ |u| := pu
      obtain ⟨hz, ez, lz⟩ := round_bounded hF q1 (by omega) h4
      rw [ez]
      refine ⟨trivial, ?_, lz⟩
      have l0 : (2 : ℝ) ^ (-g) ≤ |F.rnd (u / v)| := by
        have tm : (2 : ℝ) ^ (-g) ∈ F.grid := hF.two_mem (by omega)
        rcases le_abs.1 q2 with c | c
        · have := F.rnd_mono c
          rw [F.rnd_of_mem _ tm] at this
          exact this.trans (le_abs_self _)
        · have := F.rnd_mono (show u / v ≤ -(2 : ℝ) ^ (-g) by linarith)
          rw [F.rnd_of_mem _ (F.neg_mem _ tm)] at this
          exact (by linarith : (2 : ℝ) ^ (-g) ≤ -F.rnd (u / v)).trans (neg_le_abs _)
      have := hF.coarse (-g) _ (F.rnd_mem _) l0
      rwa [show -g - (p : ℤ) = -(g + p) by ring] at this

/-! ### Control points -/

/-- Exponents for which nothing underflows or overflows in the evaluation of a spline of degree
`D`. -/
structure SplineRoom (p : ℕ) (low top : ℤ) (D : ℕ) (k m b B e g : ℤ) : Prop where
  k_lo : low ≤ k
  k_hi : k ≤ top
  g_nonneg : 0 ≤ g
  g_ge : B + 1 - e ≤ g
  g_lo : low ≤ -(g + p)
  g_hi : g + 1 ≤ top
  B_lo : low ≤ B + 1
  B_hi : B + 1 ≤ top
  lo : low ≤ m - D * (g + p)
  lo' : low ≤ m - D * (g + p) + k
  hi : b + D * (g + 2) ≤ top
  hi' : b + D * (g + 2) + k ≤ top

/-- The bounds after `r` rounds. -/
def LevelPt (p : ℕ) (k m b g : ℤ) (r : ℕ) (x y : PointN (Fl F) n) : Prop :=
  ScaledPt k (m - r * (g + p)) (b + r * (g + 2)) x y

theorem LevelPt.mono {r s : ℕ} (g0 : 0 ≤ g) {x y : PointN (Fl F) n} (h : LevelPt p k m b g r x y)
    (hrs : r ≤ s) : LevelPt p k m b g s x y := by
  have e1 : (r : ℤ) ≤ s := by exact_mod_cast hrs
  refine ScaledPt.mono h ?_ ?_ <;> nlinarith

theorem LevelPt.step (hF : F.Binary p low top) (R : SplineRoom p low top D k m b B e g) {r : ℕ}
    (hr : r + 1 ≤ D) {x y x' y' : PointN (Fl F) n} {a : Fl F} (hx : LevelPt p k m b g r x y)
    (hx' : LevelPt p k m b g r x' y') (ha : OnGrid (-(g + p)) g a) :
    LevelPt p k m b g (r + 1) (x * (lit 1 - a) + x' * a) (y * (lit 1 - a) + y' * a) := by
  have g0 := R.g_nonneg
  have r1 : ((r + 1 : ℕ) : ℤ) ≤ D := by exact_mod_cast hr
  have s1 : ((r + 1 : ℕ) : ℤ) * (g + p) ≤ D * (g + p) :=
    mul_le_mul_of_nonneg_right r1 (by omega)
  have s2 : ((r + 1 : ℕ) : ℤ) * (g + 2) ≤ D * (g + 2) :=
    mul_le_mul_of_nonneg_right r1 (by omega)
  push_cast at s1 s2
  have l1 := R.lo
  have l2 := R.lo'
  have l3 := R.hi
  have l4 := R.hi'
  have c : OnGrid (-(g + p)) (g + 1) (lit 1 - a) := by
    have h1 : OnGrid (-(g + p)) g (-a) := ha.same.neg.onGrid
    exact (onGrid_lit1.mono (by omega) g0).add hF h1 R.g_lo R.g_hi
  have a1 := hx.mulParam hF c (by linarith) (by linarith) (by linarith) (by linarith)
  have a2 := (hx'.mulParam hF ha (by linarith) (by linarith) (by linarith) (by linarith)).mono
    le_rfl (show b + r * (g + 2) + g ≤ b + r * (g + 2) + (g + 1) by omega)
  have a3 := a1.add hF a2 (by linarith) (by linarith) (by linarith) (by linarith)
  refine ScaledPt.mono a3 (le_of_eq ?_) (le_of_eq ?_) <;> push_cast <;> ring

theorem round_rel (hF : F.Binary p low top) (heps : F.epsilon = 2 ^ (1 - (p : ℤ)))
    (R : SplineRoom p low top D k m b B e g) {knots : Arr (Fl F) K} {t : Fl F}
    (hk : KnotRange p B e knots t) (i : ℕ) {r : ℕ} (hr : r + 1 ≤ D)
    {d d' : Arr (PointN (Fl F) n) (D + 1)} (hd : ∀ j, LevelPt p k m b g r (d j) (d' j)) :
    OutRel (fun d d' => ∀ j, LevelPt p k m b g (r + 1) (d j) (d' j))
      (BSpline.deBoorRound knots t i (r + 1) d) (BSpline.deBoorRound knots t i (r + 1) d') := by
  unfold BSpline.deBoorRound
  have g0 := R.g_nonneg
  refine (OutRel.forRangeRev (fun q (d d' : Arr (PointN (Fl F) n) (D + 1)) => ∀ j : Fin (D + 1),
    (j.val < q → LevelPt p k m b g r (d j) (d' j)) ∧ LevelPt p k m b g (r + 1) (d j) (d' j))
    (by omega) (fun j => ⟨fun _ => hd j, (hd j).mono g0 (by omega)⟩) ?_).mono
    fun a b h j => (h j).2
  intro q d d' hq hq' hdq
  refine (alpha_onGrid hF heps hk R.B_lo R.B_hi R.g_ge g0 R.g_lo (by linarith [R.g_hi]) i (r + 1)
    q).bind ?_
  rintro a _ ⟨rfl, ha⟩
  have get : ∀ s, s < q + 1 → OptRel (LevelPt p k m b g r) (d.get? s) (d'.get? s) :=
    fun s hs => Arr.get?_rel _ fun h => (hdq ⟨s, h⟩).1 hs
  have e1 : (do d.get? (← usub q 1)) = d.get? (q - 1) := by
    rw [usub_le (by omega)]
    rfl
  have e2 : (do d'.get? (← usub q 1)) = d'.get? (q - 1) := by
    rw [usub_le (by omega)]
    rfl
  rw [e1, e2]
  refine (get _ (by omega)).ofOption.bind fun x y hx => ?_
  refine (get _ (by omega)).ofOption.bind fun x' y' hx' => ?_
  rw [Arr.set?_lt _ hq', Arr.set?_lt _ hq']
  intro j
  have st := LevelPt.step hF R hr hx hx' ha
  constructor
  · intro hj
    have : j.val ≠ q := by omega
    simp only [this, if_false]
    exact (hdq j).1 (by omega)
  · dsimp only
    split
    · exact st
    · exact (hdq j).2

theorem scaledPt_default {m b : ℤ} : ScaledPt k m b (Point.default : PointN (Fl F) n)
    Point.default := by
  intro i
  show ScaledFl k m b (lit 0 : Fl F) (lit 0)
  rw [lit_zero]
  exact ⟨0, F.zero_ok, by rw [mul_zero]; exact F.zero_ok, rfl, fin_congr (by rw [mul_zero]),
    isMultiple_zero _, by rw [abs_zero]; positivity⟩

/-- The two evaluations run in step. -/
theorem spline_scaled (hF : F.Binary p low top) (heps : F.epsilon = 2 ^ (1 - (p : ℤ)))
    (R : SplineRoom p low top D k m b B e g) (s : BSpline (Fl F) (PointN (Fl F) n) K C D)
    (hs : ∀ i, PointOnGrid m b (s.control_points i)) {t : Fl F}
    (hk : KnotRange p B e s.knots t) :
    OutRel (LevelPt p k m b g D) (s.eval t) ((s.mapPts (timesTwoPow k)).eval t) := by
  have g0 := R.g_nonneg
  have d1 : (0 : ℤ) ≤ D * (g + p) := by positivity
  have d2 : (0 : ℤ) ≤ D * (g + 2) := by positivity
  have sc : ∀ i, LevelPt p k m b g 0 (s.control_points i) (timesTwoPow k (s.control_points i)) := by
    intro i
    have := (hs i).scaled hF R.k_lo R.k_hi (by linarith [R.lo]) (by linarith [R.lo'])
      (by linarith [R.hi]) (by linarith [R.hi'])
    unfold LevelPt
    simpa [timesTwoPow] using this
  unfold BSpline.eval
  show OutRel _ _ (Outcome.ofOption s.knotDomain >>= _)
  refine (OutRel.refl _).bind ?_
  rintro ⟨lo, hi⟩ _ rfl
  dsimp only
  split
  · rfl
  unfold BSpline.deBoorIterative
  refine (OutRel.refl (Outcome.ofOption (s.knots.get? C))).bind ?_
  rintro kC _ rfl
  split
  · refine OptRel.ofOption ((OptRel.refl (usub C 1)).bind ?_)
    rintro c _ rfl
    exact Arr.get?_rel _ fun h => (sc _).mono g0 (Nat.zero_le _)
  · show OutRel _ (Outcome.ofOption (s.knotSpanStart t) >>= _)
      (Outcome.ofOption (s.knotSpanStart t) >>= _)
    refine (OutRel.refl _).bind ?_
    rintro o _ rfl
    rcases o with _ | i
    · rfl
    have cp : OptRel (fun d d' : Arr (PointN (Fl F) n) (D + 1) =>
        ∀ j, LevelPt p k m b g 0 (d j) (d' j))
        (BSpline.copyPoints s.control_points i fun _ => Point.default)
        (BSpline.copyPoints (s.mapPts (timesTwoPow k)).control_points i fun _ => Point.default) := by
      unfold BSpline.copyPoints
      refine OptRel.forRange (fun _ (d d' : Arr (PointN (Fl F) n) (D + 1)) =>
        ∀ j, LevelPt p k m b g 0 (d j) (d' j)) (Nat.zero_le _) (fun _ => scaledPt_default) ?_
      intro j d d' _ hj hd
      refine (OptRel.refl (usub (j + i) D)).bind ?_
      rintro c _ rfl
      refine (Arr.get?_rel (R := LevelPt p k m b g 0) _ fun h => sc _).bind fun x y hx => ?_
      rw [Arr.set?_lt _ (by omega), Arr.set?_lt _ (by omega)]
      intro l
      dsimp only
      split
      · exact hx
      · exact hd l
    refine cp.ofOption.bind fun d d' hd => ?_
    refine (OutRel.forRange (fun r (d d' : Arr (PointN (Fl F) n) (D + 1)) =>
      ∀ j, LevelPt p k m b g (r - 1) (d j) (d' j)) (by omega) hd ?_).bind fun d d' hd => ?_
    · intro r d d' h1 h2 hd
      obtain ⟨q, rfl⟩ : ∃ q, r = q + 1 := ⟨r - 1, by omega⟩
      exact round_rel hF heps R hk i (by omega) hd
    · exact (Arr.get?_rel (R := LevelPt p k m b g D) _ fun h => hd _).ofOption

/-- **C140** (unit of length): multiplying the control points by `2^k` multiplies the computed
points by exactly `2^k`, for all parameters in the range of the knots, and with the same errors and
panics. -/
theorem C140_points (hF : F.Binary p low top) (heps : F.epsilon = 2 ^ (1 - (p : ℤ)))
    (R : SplineRoom p low top D k m b B e g) (s : BSpline (Fl F) (PointN (Fl F) n) K C D)
    (hs : ∀ i, PointOnGrid m b (s.control_points i)) {t : Fl F}
    (hk : KnotRange p B e s.knots t) :
    (s.mapPts (timesTwoPow k)).eval t = (s.eval t).mapOk (timesTwoPow k) := by
  have h := spline_scaled hF heps R s hs hk
  revert h
  cases s.eval t <;> cases (s.mapPts (timesTwoPow k)).eval t <;> intro h
  case ok.ok => exact congrArg Outcome.ok (ScaledPt.eq_mul hF h R.k_lo R.k_hi)
  case err.err => exact congrArg Outcome.err h.symm
  case panic.panic => rfl
  all_goals exact h.elim

end

/-! ### Knots -/

section

variable {p : ℕ} {low top : ℤ} {k h B : ℤ} {P : Type} [Point (Fl F) P]

theorem OptRel.eq {α : Type} {x y : Option α} (h : OptRel Eq x y) : y = x := by
  cases x <;> cases y <;> first | exact h.elim | exact congrArg some (Eq.symm h) | rfl

theorem OutRel.eq {α : Type} {x y : Outcome α} (h : OutRel Eq x y) : y = x := by
  cases x <;> cases y
  case ok.ok => exact congrArg Outcome.ok (Eq.symm h)
  case err.err => exact congrArg Outcome.err (Eq.symm h)
  case panic.panic => rfl
  all_goals exact h.elim

theorem ScaledFl.le {k m b m' b' : ℤ} {x y x' y' : Fl F} (h : ScaledFl k m b x y)
    (h' : ScaledFl k m' b' x' y') : Scalar.le y y' = Scalar.le x x' := by
  obtain ⟨r, hr, hr', rfl, rfl, _, _⟩ := h
  obtain ⟨s, hs, hs', rfl, rfl, _, _⟩ := h'
  rw [Bool.eq_iff_iff, le_fin, le_fin]
  exact mul_le_mul_iff_of_pos_left (by positivity)

theorem ScaledFl.eqB {k m b m' b' : ℤ} {x y x' y' : Fl F} (h : ScaledFl k m b x y)
    (h' : ScaledFl k m' b' x' y') : Scalar.eq y y' = Scalar.eq x x' := by
  obtain ⟨r, hr, hr', rfl, rfl, _, _⟩ := h
  obtain ⟨s, hs, hs', rfl, rfl, _, _⟩ := h'
  rw [Bool.eq_iff_iff, eq_fin, eq_fin]
  have : (2 : ℝ) ^ k ≠ 0 := by positivity
  exact mul_right_inj' this

theorem ScaledFl.abs {k m b : ℤ} {x y : Fl F} (h : ScaledFl k m b x y) :
    ScaledFl k m b (Scalar.abs x) (Scalar.abs y) := by
  obtain ⟨r, hr, hr', rfl, rfl, h1, h2⟩ := h
  have hk : (0 : ℝ) < 2 ^ k := by positivity
  have e : |2 ^ k * r| = 2 ^ k * |r| := by rw [abs_mul, abs_of_pos hk]
  have o1 : |r| ∈ F.grid ∧ |(|r|)| ≤ F.max := by
    refine ⟨?_, by rw [abs_abs]; exact hr.2⟩
    rcases abs_choice r with e | e <;> rw [e]
    · exact hr.1
    · exact F.neg_mem r hr.1
  have o2 : 2 ^ k * |r| ∈ F.grid ∧ |(2 ^ k * |r|)| ≤ F.max := by
    rw [← e]
    refine ⟨?_, by rw [abs_abs]; exact hr'.2⟩
    rcases abs_choice (2 ^ k * r) with e | e <;> rw [e]
    · exact hr'.1
    · exact F.neg_mem _ hr'.1
  refine ⟨|r|, o1, o2, rfl, ?_, ?_, by rwa [abs_abs]⟩
  · show fin |2 ^ k * r| _ = fin (2 ^ k * |r|) _
    exact fin_congr e
  · rcases abs_choice r with e | e <;> rw [e]
    · exact h1
    · exact h1.neg

/-- Comparisons with the tolerance come out the same if the grid is not finer than it. -/
theorem ScaledFl.lt_epsilon {k m b : ℤ} {x y : Fl F} (h : ScaledFl k m b x y)
    (h1 : F.epsilon ≤ 2 ^ m) (h2 : F.epsilon ≤ 2 ^ (m + k)) :
    Scalar.lt y (Scalar.epsilon : Fl F) = Scalar.lt x Scalar.epsilon := by
  obtain ⟨r, hr, hr', rfl, rfl, m1, _⟩ := h
  rw [Bool.eq_iff_iff, epsilon_eq, lt_fin, lt_fin]
  have hk : (0 : ℝ) < 2 ^ k := by positivity
  have e0 := F.epsilon_pos
  rcases le_or_gt r 0 with c | c
  · exact ⟨fun _ => c.trans_lt e0, fun _ => (mul_nonpos_of_nonneg_of_nonpos hk.le c).trans_lt e0⟩
  · have := m1.le_abs c.ne'
    rw [abs_of_pos c] at this
    have l2 : F.epsilon ≤ 2 ^ k * r := h2.trans (by
      rw [zpow_add₀ (by norm_num), mul_comm]
      gcongr)
    exact ⟨fun g => absurd l2 (not_le.2 g), fun g => absurd (h1.trans this) (not_le.2 g)⟩

variable {knots knots' : Arr (Fl F) K} {t t' : Fl F}

theorem spanUnclampedLoop_scaled (hk : ∀ i, ScaledFl k h B (knots i) (knots' i))
    (ht : ScaledFl k h B t t') (count : ℕ) : ∀ first,
    OptRel Eq (BSpline.spanUnclampedLoop knots t first count)
      (BSpline.spanUnclampedLoop knots' t' first count) := by
  have get : ∀ i, OptRel (ScaledFl k h B) (knots.get? i) (knots'.get? i) :=
    fun i => Arr.get?_rel i fun _ => hk _
  induction count using Nat.strong_induction_on with
  | _ count ih =>
    intro first
    rw [BSpline.spanUnclampedLoop, BSpline.spanUnclampedLoop]
    by_cases hc : 0 < count
    · rw [if_pos hc, if_pos hc]
      refine (get _).bind fun k1 k1' h1 => ?_
      refine (OptRel.refl _).bind ?_
      rintro k2 _ rfl
      rw [ht.lt h1, ht.eqB h1]
      split
      · exact rfl
      · refine (get _).bind fun k0 k0' h0 => ?_
        rw [h0.le ht]
        split
        · exact ih _ (by omega) _
        · exact ih _ (by omega) _
    · rw [if_neg hc, if_neg hc]
      exact rfl

theorem spanClampedLoop_scaled (hk : ∀ i, ScaledFl k h B (knots i) (knots' i))
    (ht : ScaledFl k h B t t') (n : ℕ) : ∀ lo hi, hi + 1 - lo ≤ n →
    OptRel Eq (BSpline.spanClampedLoop knots t lo hi) (BSpline.spanClampedLoop knots' t' lo hi) := by
  have get : ∀ i, OptRel (ScaledFl k h B) (knots.get? i) (knots'.get? i) :=
    fun i => Arr.get?_rel i fun _ => hk _
  induction n with
  | zero =>
    intro lo hi hn
    rw [BSpline.spanClampedLoop, BSpline.spanClampedLoop, if_neg (by omega), if_neg (by omega)]
    exact rfl
  | succ n ih =>
    intro lo hi hn
    rw [BSpline.spanClampedLoop, BSpline.spanClampedLoop]
    by_cases hc : lo ≤ hi
    · rw [if_pos hc, if_pos hc]
      refine (get _).bind fun k0 k0' h0 => ?_
      rw [h0.le ht, ht.lt h0]
      have tail : ∀ c : Bool, OptRel Eq
          (if c = true then pure (some ((lo + hi) / 2))
            else if Scalar.lt t k0 = true then
              if (lo + hi) / 2 = 0 then none
              else BSpline.spanClampedLoop knots t lo ((lo + hi) / 2 - 1)
            else BSpline.spanClampedLoop knots t ((lo + hi) / 2 + 1) hi)
          (if c = true then pure (some ((lo + hi) / 2))
            else if Scalar.lt t k0 = true then
              if (lo + hi) / 2 = 0 then none
              else BSpline.spanClampedLoop knots' t' lo ((lo + hi) / 2 - 1)
            else BSpline.spanClampedLoop knots' t' ((lo + hi) / 2 + 1) hi) := by
        intro c
        split
        · exact rfl
        · split
          · split
            · trivial
            · exact ih _ _ (by omega)
          · exact ih _ _ (by omega)
      dsimp only
      split
      · refine (get _).bind fun k1 k1' h1 => ?_
        rw [ht.lt h1]
        exact tail _
      · exact tail false
    · rw [if_neg hc, if_neg hc]
      exact rfl

/-- The spline with other knots. -/
def BSpline.withKnots (s : BSpline (Fl F) P K C D) (knots : Arr (Fl F) K) :
    BSpline (Fl F) P K C D := ⟨knots, s.knot_kind, s.control_points⟩

theorem knotSpanStart_scaled (s : BSpline (Fl F) P K C D)
    (hk : ∀ i, ScaledFl k h B (s.knots i) (knots' i)) (ht : ScaledFl k h B t t') :
    OptRel Eq (s.knotSpanStart t) ((s.withKnots knots').knotSpanStart t') := by
  have get : ∀ i, OptRel (ScaledFl k h B) (s.knots.get? i) ((s.withKnots knots').knots.get? i) :=
    fun i => Arr.get?_rel i fun _ => hk _
  unfold BSpline.knotSpanStart
  have e : (s.withKnots knots').knot_kind = s.knot_kind := rfl
  rw [e]
  cases s.knot_kind with
  | Unclamped => exact spanUnclampedLoop_scaled hk ht _ _
  | Clamped =>
    refine (OptRel.refl _).bind ?_
    rintro n _ rfl
    refine (get _).bind fun x y hx => ?_
    rw [ht.eqB hx]
    split
    · exact rfl
    · exact spanClampedLoop_scaled hk ht _ _ _ le_rfl
  | ClampedStart =>
    refine (OptRel.refl _).bind ?_
    rintro n _ rfl
    refine (OptRel.refl _).bind ?_
    rintro m _ rfl
    refine (get _).bind fun x y hx => ?_
    rw [ht.eqB hx]
    split
    · exact rfl
    · refine (get _).bind fun x' y' hx' => ?_
      rw [ht.lt hx', hx.lt ht]
      split
      · exact rfl
      · refine (OptRel.refl _).bind ?_
        rintro hi _ rfl
        rw [spanClampedStartLoop_eq, spanClampedStartLoop_eq]
        exact spanClampedLoop_scaled hk ht _ _ _ le_rfl
  | ClampedEnd =>
    refine (OptRel.refl _).bind ?_
    rintro n _ rfl
    refine (get _).bind fun x y hx => ?_
    rw [ht.eqB hx]
    split
    · exact rfl
    · refine (get _).bind fun x' y' hx' => ?_
      rw [ht.lt hx', hx.lt ht]
      split
      · exact rfl
      · rw [spanClampedEndLoop_eq, spanClampedEndLoop_eq]
        exact spanClampedLoop_scaled hk ht _ _ _ le_rfl

theorem knotDomain_scaled (s : BSpline (Fl F) P K C D)
    (hk : ∀ i, ScaledFl k h B (s.knots i) (knots' i)) :
    OptRel (fun d d' => ScaledFl k h B d.1 d'.1 ∧ ScaledFl k h B d.2 d'.2) s.knotDomain
      (s.withKnots knots').knotDomain := by
  have get : ∀ i, OptRel (ScaledFl k h B) (s.knots.get? i) ((s.withKnots knots').knots.get? i) :=
    fun i => Arr.get?_rel i fun _ => hk _
  unfold BSpline.knotDomain
  have e : (s.withKnots knots').knot_kind = s.knot_kind := rfl
  rw [e]
  cases s.knot_kind with
  | Unclamped =>
    refine (get _).bind fun x y hx => ?_
    exact (get _).bind fun x' y' hx' => ⟨hx, hx'⟩
  | Clamped =>
    refine (get _).bind fun x y hx => ?_
    refine (OptRel.refl _).bind ?_
    rintro n _ rfl
    refine (OptRel.refl _).bind ?_
    rintro n _ rfl
    exact (get _).bind fun x' y' hx' => ⟨hx, hx'⟩
  | ClampedStart =>
    refine (get _).bind fun x y hx => ?_
    refine (OptRel.refl _).bind ?_
    rintro n _ rfl
    exact (get _).bind fun x' y' hx' => ⟨hx, hx'⟩
  | ClampedEnd =>
    refine (get _).bind fun x y hx => ?_
    refine (OptRel.refl _).bind ?_
    rintro n _ rfl
    refine (OptRel.refl _).bind ?_
    rintro n _ rfl
    exact (get _).bind fun x' y' hx' => ⟨hx, hx'⟩

/-- Exponents with room for the differences of knots; the grid of the knots is not finer than the
tolerance, before and after scaling. -/
structure KnotRoom (F : FloatFormat) (low top k h B : ℤ) : Prop where
  k_lo : low ≤ k
  k_hi : k ≤ top
  lo : low ≤ h
  lo' : low ≤ h + k
  hi : B + 1 ≤ top
  hi' : B + 1 + k ≤ top
  eps : F.epsilon ≤ 2 ^ h
  eps' : F.epsilon ≤ 2 ^ (h + k)

theorem alpha_scaled (hF : F.Binary p low top) (R : KnotRoom F low top k h B)
    (hk : ∀ i, ScaledFl k h B (knots i) (knots' i)) (ht : ScaledFl k h B t t') (i r j : ℕ) :
    OutRel Eq (BSpline.alpha (D := D) knots t i r j) (BSpline.alpha (D := D) knots' t' i r j) := by
  have get : ∀ o : Option ℕ, OptRel (ScaledFl k h B) (do knots.get? (← o))
      (do knots'.get? (← o)) := by
    intro o
    refine (OptRel.refl o).bind ?_
    rintro a _ rfl
    exact Arr.get?_rel _ fun _ => hk _
  unfold BSpline.alpha
  refine (get _).ofOption.bind fun x y hx => ?_
  refine (get _).ofOption.bind fun x' y' hx' => ?_
  have d1 := ht.sub hF hx R.lo R.lo' R.hi R.hi'
  have d2 := hx'.sub hF hx R.lo R.lo' R.hi R.hi'
  dsimp only
  rw [d1.lt_epsilon R.eps R.eps', d2.abs.lt_epsilon R.eps R.eps']
  by_cases c2 : Scalar.lt (Scalar.abs (x' - x)) (Scalar.epsilon : Fl F) = true
  · simp only [c2, if_true]
    exact OutRel.refl _
  · have q : (t' - y) / (y' - y) = (t - x) / (x' - x) := by
      obtain ⟨u, hu, hu', e1, e2, _, _⟩ := d1
      obtain ⟨v, hv, hv', e3, e4, _, _⟩ := d2
      rw [e3, epsilon_eq] at c2
      have v0 : v ≠ 0 := by
        rintro rfl
        refine c2 (lt_fin.2 ?_)
        rw [abs_zero]
        exact F.epsilon_pos
      have k0 : (2 : ℝ) ^ k ≠ 0 := by positivity
      rw [e1, e2, e3, e4, fin_div v0, fin_div (mul_ne_zero k0 v0), mul_div_mul_left _ _ k0]
    rw [q]
    exact OutRel.refl _

/-- The knots and the parameter multiplied by `2^k`: the same point, error or panic. -/
theorem eval_knots_scaled (hF : F.Binary p low top) (R : KnotRoom F low top k h B)
    (s : BSpline (Fl F) P K C D) (hk : ∀ i, ScaledFl k h B (s.knots i) (knots' i))
    (ht : ScaledFl k h B t t') : (s.withKnots knots').eval t' = s.eval t := by
  have al : ∀ i r j, BSpline.alpha (D := D) knots' t' i r j = BSpline.alpha (D := D) s.knots t i r j :=
    fun i r j => (alpha_scaled hF R hk ht i r j).eq
  have rd : ∀ i r (d : Arr P (D + 1)), BSpline.deBoorRound knots' t' i r d
      = BSpline.deBoorRound s.knots t i r d := by
    intro i r d
    unfold BSpline.deBoorRound
    simp only [al]
  refine OutRel.eq ?_
  unfold BSpline.eval
  refine (knotDomain_scaled s hk).ofOption.bind ?_
  rintro ⟨lo, hi⟩ ⟨lo', hi'⟩ ⟨h1, h2⟩
  dsimp only at h1 h2 ⊢
  rw [ht.lt h1, h2.lt ht]
  split
  · rfl
  unfold BSpline.deBoorIterative
  have get : OptRel (ScaledFl k h B) (s.knots.get? C) ((s.withKnots knots').knots.get? C) :=
    Arr.get?_rel C fun _ => hk _
  refine get.ofOption.bind fun x y hx => ?_
  rw [ht.eqB hx, (knotSpanStart_scaled s hk ht).eq]
  simp only [BSpline.withKnots, rd]
  exact OutRel.refl _

/-- All knots multiplied by `2^k`. -/
noncomputable def scaleKnots (k : ℤ) (knots : Arr (Fl F) K) : Arr (Fl F) K :=
  fun i => knots i * twoPow F k

theorem anyDecrease_scaled {l l' : List (Fl F)} (h : List.Forall₂ (ScaledFl k h B) l l') :
    anyDecrease l' = anyDecrease l := by
  induction h with
  | nil => rfl
  | cons h1 h2 ih =>
    cases h2 with
    | nil => rfl
    | cons h3 h4 =>
      simp only [anyDecrease]
      rw [h3.lt h1, ih]

theorem all_scaled {l l' : List (Fl F)} (hl : List.Forall₂ (ScaledFl k h B) l l')
    (hF : F.Binary p low top) (R : KnotRoom F low top k h B) {x y : Fl F}
    (hx : ScaledFl k h B x y) :
    (l'.all fun a => Scalar.lt (Scalar.abs (a - y)) (Scalar.epsilon : Fl F))
      = l.all fun a => Scalar.lt (Scalar.abs (a - x)) (Scalar.epsilon : Fl F) := by
  induction hl with
  | nil => rfl
  | cons h1 _ ih =>
    rw [List.all_cons, List.all_cons, ih,
      (h1.sub hF hx R.lo R.lo' R.hi R.hi').abs.lt_epsilon R.eps R.eps']

/-- **C140** (unit of the parameter): for knots that are multiples of `2^h`, not smaller than the
tolerance, before and after multiplying them by `2^k`, the constructor gives the same answer, the
knot domain is multiplied by exactly `2^k`, and evaluation at `2^k t` gives the same point, bit for
bit, the same error or the same panic. -/
theorem C140_knots (hF : F.Binary p low top) (R : KnotRoom F low top k h B)
    {knots : Arr (Fl F) K} (hk : ∀ i, OnGrid h B (knots i)) (ps : Arr P C) :
    OutRel (fun s s' : BSpline (Fl F) P K C D => s' = s.withKnots (scaleKnots k knots) ∧
        s'.knotDomain = s.knotDomain.map (fun d => (d.1 * twoPow F k, d.2 * twoPow F k)) ∧
        ∀ t, OnGrid h B t → s'.eval (t * twoPow F k) = s.eval t)
      (BSpline.new knots ps) (BSpline.new (scaleKnots k knots) ps) := by
  have sc : ∀ {x : Fl F}, OnGrid h B x → ScaledFl k h B x (x * twoPow F k) := fun hx =>
    hx.scaled hF R.k_lo R.k_hi R.lo R.lo' (by linarith [R.hi]) (by linarith [R.hi'])
  have hs : ∀ i, ScaledFl k h B (knots i) (scaleKnots k knots i) := fun i => sc (hk i)
  have get : ∀ i, OptRel (ScaledFl k h B) (knots.get? i) ((scaleKnots k knots).get? i) :=
    fun i => Arr.get?_rel i fun _ => hs _
  have hl : List.Forall₂ (ScaledFl k h B) knots.toList (scaleKnots k knots).toList := by
    unfold Arr.toList
    rw [List.forall₂_iff_get]
    refine ⟨by simp, fun i h1 h2 => ?_⟩
    simpa using hs _
  unfold BSpline.new
  rw [anyDecrease_scaled hl]
  split
  · rfl
  split
  · rfl
  split
  · rfl
  split
  · rfl
  refine (get _).ofOption.bind fun x y hx => ?_
  have e1 : OptRel (ScaledFl k h B) (do knots.get? (← usub K 1))
      (do (scaleKnots k knots).get? (← usub K 1)) := by
    refine (OptRel.refl _).bind ?_
    rintro a _ rfl
    exact get _
  refine e1.ofOption.bind fun x' y' hx' => ?_
  dsimp only
  rw [all_scaled (List.forall₂_take _ hl) hF R hx, all_scaled (List.forall₂_drop _ hl) hF R hx']
  have key : ∀ κ, (⟨scaleKnots k knots, κ, ps⟩ : BSpline (Fl F) P K C D)
        = BSpline.withKnots ⟨knots, κ, ps⟩ (scaleKnots k knots) ∧
      (⟨scaleKnots k knots, κ, ps⟩ : BSpline (Fl F) P K C D).knotDomain
        = (⟨knots, κ, ps⟩ : BSpline (Fl F) P K C D).knotDomain.map
          (fun d => (d.1 * twoPow F k, d.2 * twoPow F k)) ∧
      ∀ t, OnGrid h B t → (⟨scaleKnots k knots, κ, ps⟩ : BSpline (Fl F) P K C D).eval
          (t * twoPow F k) = (⟨knots, κ, ps⟩ : BSpline (Fl F) P K C D).eval t := by
    intro κ
    refine ⟨rfl, ?_, fun t ht =>
      eval_knots_scaled hF R (⟨knots, κ, ps⟩ : BSpline (Fl F) P K C D) hs (sc ht)⟩
    have hd := knotDomain_scaled (⟨knots, κ, ps⟩ : BSpline (Fl F) P K C D) hs
    change OptRel _ _ (BSpline.knotDomain (⟨scaleKnots k knots, κ, ps⟩ : BSpline (Fl F) P K C D)) at hd
    revert hd
    cases BSpline.knotDomain (⟨knots, κ, ps⟩ : BSpline (Fl F) P K C D) <;>
    cases BSpline.knotDomain (⟨scaleKnots k knots, κ, ps⟩ : BSpline (Fl F) P K C D) <;> intro hd
    · rfl
    · exact hd.elim
    · exact hd.elim
    · exact congrArg some (Prod.ext (hd.1.eq_mul hF R.k_lo R.k_hi) (hd.2.eq_mul hF R.k_lo R.k_hi))
  exact key _

end

/-! ### Arc lengths -/

section

variable {p : ℕ} {low top : ℤ} {k m b B g : ℤ}

/-- A finite float of size at most `2^c`. -/
def AtMost (c : ℤ) (x : Fl F) : Prop := x.IsFinite ∧ |x.toReal| ≤ 2 ^ c

theorem atMost_round (hF : F.Binary p low top) {r : ℝ} {c : ℤ} (h : |r| ≤ 2 ^ c) (h1 : low ≤ c)
    (h2 : c ≤ top) : AtMost c (F.round r) := by
  obtain ⟨hz, e, l⟩ := round_bounded hF h h1 h2
  rw [e]
  exact ⟨trivial, l⟩

theorem AtMost.add (hF : F.Binary p low top) {x y : Fl F} {c : ℤ} (hx : AtMost c x)
    (hy : AtMost c y) (h1 : low ≤ c + 1) (h2 : c + 1 ≤ top) : AtMost (c + 1) (x + y) := by
  obtain ⟨fx, bx⟩ := hx
  obtain ⟨fy, by'⟩ := hy
  obtain ⟨u, hu, rfl⟩ := isFinite_iff.1 fx
  obtain ⟨v, hv, rfl⟩ := isFinite_iff.1 fy
  rw [toReal_fin] at bx by'
  rw [fin_add]
  refine atMost_round hF ?_ h1 h2
  rw [zpow_add₀ (by norm_num), zpow_one]
  have := abs_add_le u v
  linarith

theorem AtMost.neg {x : Fl F} {c : ℤ} (hx : AtMost c x) : AtMost c (-x) := by
  obtain ⟨fx, bx⟩ := hx
  obtain ⟨u, hu, rfl⟩ := isFinite_iff.1 fx
  rw [fin_neg]
  exact ⟨trivial, by rw [toReal_fin, abs_neg]; exact bx⟩

theorem AtMost.mul (hF : F.Binary p low top) {x y : Fl F} {c : ℤ} (hx : AtMost 0 x)
    (hy : AtMost c y) (h1 : low ≤ c) (h2 : c ≤ top) : AtMost c (x * y) := by
  obtain ⟨fx, bx⟩ := hx
  obtain ⟨fy, by'⟩ := hy
  obtain ⟨u, hu, rfl⟩ := isFinite_iff.1 fx
  obtain ⟨v, hv, rfl⟩ := isFinite_iff.1 fy
  rw [toReal_fin] at bx by'
  rw [zpow_zero] at bx
  rw [fin_mul]
  refine atMost_round hF ?_ h1 h2
  rw [abs_mul]
  calc |u| * |v| ≤ 1 * |v| := by gcongr
    _ = |v| := one_mul _
    _ ≤ 2 ^ c := by'

theorem AtMost.mono {x : Fl F} {c d : ℤ} (hx : AtMost c x) (h : c ≤ d) : AtMost d x :=
  ⟨hx.1, hx.2.trans (two_zpow_mono h)⟩

theorem atMost_quotient (hF : F.Binary p low top) {i N w : ℕ} (hN1 : 1 ≤ N) (hiN : i ≤ N)
    (hN : N ≤ 2 ^ w) (hw : w ≤ p) (hl : low ≤ 0) (ht : (w : ℤ) ≤ top) :
    AtMost 0 (Scalar.ofUsize i / Scalar.ofUsize N : Fl F) := by
  obtain ⟨h1, e1⟩ := ofUsize_eq hF hl (hiN.trans hN) hw ht
  obtain ⟨h2, e2⟩ := ofUsize_eq hF hl hN hw ht
  have N0 : (0 : ℝ) < N := by exact_mod_cast (by omega : 0 < N)
  rw [e1, e2, fin_div N0.ne']
  refine atMost_round hF ?_ hl (by omega)
  rw [zpow_zero, abs_of_nonneg (by positivity), div_le_one N0]
  exact_mod_cast hiN

/-- Exponents for which nothing underflows or overflows in the computation of the length of a
spline of degree `D` in `n` dimensions with `2^w` steps; knots are at most `2^B` in size. -/
structure SplineLengthRoom (p : ℕ) (low top : ℤ) (n D w : ℕ) (k m b B g : ℤ) : Prop
    extends SplineRoom p low top D k m b (B + 3) (1 - p) g where
  steps : w ≤ p
  B_nonneg : 0 ≤ B
  low_le : low ≤ 0
  top_ge : (w : ℤ) ≤ top
  square_lo : low ≤ 2 * (m - D * (g + p))
  square_lo' : low ≤ 2 * (m - D * (g + p)) + 2 * k
  sum_lo : low ≤ m - D * (g + p) - p
  sum_lo' : low ≤ m - D * (g + p) - p + k
  square_hi : 2 * (b + D * (g + 2) + 1) + n ≤ top
  square_hi' : 2 * (b + D * (g + 2) + 1) + n + 2 * k ≤ top
  sum_hi : b + D * (g + 2) + 1 + n + w ≤ top
  sum_hi' : b + D * (g + 2) + 1 + n + w + k ≤ top
  size : low ≤ b

/-- **C140** (unit of length, arc lengths): multiplying the control points by `2^k` multiplies the
computed arc length by exactly `2^k`, and does not change whether the computation panics. -/
theorem C140_arclen (hF : F.Binary p low top) (heps : F.epsilon = 2 ^ (1 - (p : ℤ))) {w : ℕ}
    (R : SplineLengthRoom p low top n D w k m b B g)
    (s : BSpline (Fl F) (PointN (Fl F) n) K C D)
    (hs : ∀ i, PointOnGrid m b (s.control_points i)) (hk : ∀ i, AtMost B (s.knots i))
    {N : ℕ} (hN1 : 1 ≤ N) (hN : N + 1 ≤ 2 ^ w) :
    (s.mapPts (timesTwoPow k)).arclen N = (s.arclen N).map (· * twoPow F k) := by
  have hg := R.g_nonneg
  have hB := R.B_nonneg
  have hBhi := R.B_hi
  have hlow := R.low_le
  have hw1 : N ≤ 2 ^ w := by omega
  have d2 : (0 : ℤ) ≤ D * (g + 2) := by positivity
  set M := m - D * (g + p) with hM
  set Q := b + D * (g + 2) with hQ
  have ev : ∀ t, AtMost (B + 3) t → OptRel (ScaledPt k M Q) (s.evalOrDefault t)
      ((s.mapPts (timesTwoPow k)).evalOrDefault t) := by
    intro t ht
    have h := spline_scaled hF heps R.toSplineRoom s hs (t := t)
      ⟨fun i => (hk i).1, fun i => (hk i).2.trans (two_zpow_mono (by omega)), ht.1, ht.2,
        Or.inl le_rfl⟩
    unfold BSpline.evalOrDefault
    revert h
    cases s.eval t <;> cases (s.mapPts (timesTwoPow k)).eval t <;> intro h
    case ok.ok => exact h
    case err.err => exact scaledPt_default
    case panic.panic => trivial
    all_goals exact h.elim
  have zero : ScaledFl k (M - p) (Q + 1 + n + w) (lit 0 : Fl F) (lit 0) := by
    rw [lit_zero]
    exact ⟨0, F.zero_ok, by rw [mul_zero]; exact F.zero_ok, rfl, fin_congr (by rw [mul_zero]),
      isMultiple_zero _, by rw [abs_zero]; positivity⟩
  have dom : OptRel (fun d d' => d = d' ∧ AtMost B d.1 ∧ AtMost B d.2) s.knotDomain
      (s.mapPts (timesTwoPow k)).knotDomain := by
    show OptRel _ s.knotDomain s.knotDomain
    have get : ∀ i, OptRel (fun x y => x = y ∧ AtMost B x) (s.knots.get? i) (s.knots.get? i) :=
      fun i => Arr.get?_rel i fun _ => ⟨rfl, hk _⟩
    unfold BSpline.knotDomain
    cases s.knot_kind with
    | Unclamped =>
      refine (get _).bind fun x y hx => ?_
      exact (get _).bind fun x' y' hx' => ⟨Prod.ext hx.1 hx'.1, hx.2, hx'.2⟩
    | Clamped =>
      refine (get _).bind fun x y hx => ?_
      refine (OptRel.refl _).bind ?_
      rintro n _ rfl
      refine (OptRel.refl _).bind ?_
      rintro n _ rfl
      exact (get _).bind fun x' y' hx' => ⟨Prod.ext hx.1 hx'.1, hx.2, hx'.2⟩
    | ClampedStart =>
      refine (get _).bind fun x y hx => ?_
      refine (OptRel.refl _).bind ?_
      rintro n _ rfl
      exact (get _).bind fun x' y' hx' => ⟨Prod.ext hx.1 hx'.1, hx.2, hx'.2⟩
    | ClampedEnd =>
      refine (get _).bind fun x y hx => ?_
      refine (OptRel.refl _).bind ?_
      rintro n _ rfl
      refine (OptRel.refl _).bind ?_
      rintro n _ rfl
      exact (get _).bind fun x' y' hx' => ⟨Prod.ext hx.1 hx'.1, hx.2, hx'.2⟩
  have main : OptRel (ScaledFl k (M - p) (Q + 1 + n + w)) (s.arclen N)
      ((s.mapPts (timesTwoPow k)).arclen N) := by
    unfold BSpline.arclen
    refine dom.bind ?_
    rintro ⟨lo, hi⟩ _ ⟨rfl, hlo, hhi⟩
    dsimp only at hlo hhi ⊢
    have key := OptRel.forRange
      (fun i (x y : Fl F) => ScaledFl k (M - p) (Q + 1 + n + w) x y ∧
        |x.toReal| ≤ (i : ℝ) * 2 ^ (Q + 1 + n))
      (lo := 0) (hi := N + 1)
      (body := fun i arclen => do
        let t := lo + Scalar.ofUsize i / Scalar.ofUsize N * (hi - lo)
        let p1 ← s.evalOrDefault t
        let p2 ← s.evalOrDefault (t + lit 1 / Scalar.ofUsize N)
        pure (arclen + Scalar.sqrt (Point.squaredLength (p1 - p2))))
      (body' := fun i arclen => do
        let t := lo + Scalar.ofUsize i / Scalar.ofUsize N * (hi - lo)
        let p1 ← (s.mapPts (timesTwoPow k)).evalOrDefault t
        let p2 ← (s.mapPts (timesTwoPow k)).evalOrDefault (t + lit 1 / Scalar.ofUsize N)
        pure (arclen + Scalar.sqrt (Point.squaredLength (p1 - p2))))
      (Nat.zero_le _) ⟨zero, by rw [lit_zero]; simp⟩ (by
        intro i x y _ hi' ⟨hx, hxb⟩
        have o2 : (lit 1 : Fl F) = Scalar.ofUsize 1 := by
          show F.round _ = F.round _
          norm_num
        have q1 := atMost_quotient (F := F) hF hN1 (show i ≤ N by omega) hw1 R.steps hlow R.top_ge
        have q2 := atMost_quotient (F := F) hF hN1 hN1 hw1 R.steps hlow R.top_ge
        have a1 : AtMost (B + 1) (hi - lo) := hhi.add hF hlo.neg (by omega) (by omega)
        have a2 := q1.mul hF a1 (by omega) (by omega)
        have a3 := (hlo.mono (show B ≤ B + 1 by omega)).add hF a2 (by omega) (by omega)
        have a4 := a3.add hF (q2.mono (show (0 : ℤ) ≤ B + 1 + 1 by omega)) (by omega) (by omega)
        dsimp only
        rw [o2]
        refine (ev _ (a3.mono (by omega))).bind fun p1 p1' h1 => ?_
        refine (ev _ (a4.mono (by omega))).bind fun p2 p2' h2 => ?_
        have l1 := R.square_lo
        have l2 := R.square_lo'
        have l3 := R.sum_lo
        have l4 := R.sum_lo'
        have l5 := R.square_hi
        have l6 := R.square_hi'
        have l7 := R.sum_hi
        have l8 := R.sum_hi'
        rw [← hM] at l1 l2 l3 l4
        rw [← hQ] at l5 l6 l7 l8
        obtain ⟨s1, s2⟩ := (h1.sub hF h2 (by omega) (by omega) (by omega) (by omega)).squaredLength
          hF (by omega) (by omega) (by omega) (by omega)
        have r := ScaledFl.sqrt hF (s1.mono (b' := Q + 1 + n + (Q + 1 + n)) le_rfl (by omega)) s2
          (by omega) (by omega) (by omega) (by omega) (by linarith [R.size])
        show _ ∧ _
        obtain ⟨a, ha, ha', rfl, rfl, ma, _⟩ := hx
        obtain ⟨z, hz, hz', ez, ez', mz, bz⟩ := r
        rw [ez, ez', fin_add, fin_add]
        have bound : |a + z| ≤ ((i + 1 : ℕ) : ℝ) * 2 ^ (Q + 1 + n) := by
          rw [toReal_fin] at hxb
          have := abs_add_le a z
          push_cast
          linarith
        have iw : ((i + 1 : ℕ) : ℝ) ≤ 2 ^ w := by exact_mod_cast (Nat.succ_le_of_lt hi').trans hN
        constructor
        · refine ScaledFl.round hF (ma.add mz) (bound.trans ?_) l3 l4 l7 l8 (by ring)
          rw [zpow_add₀ (by norm_num) (Q + 1 + n), zpow_natCast, mul_comm]
          gcongr
        · refine abs_round_le ?_ bound
          have := hF.mem ((i + 1 : ℕ) : ℤ) (Q + 1 + n) ?_ (by linarith [R.size])
          · exact_mod_cast this
          · rw [abs_of_nonneg (by omega)]
            have : (2 : ℕ) ^ w ≤ 2 ^ p := Nat.pow_le_pow_right (by norm_num) R.steps
            exact_mod_cast ((Nat.succ_le_of_lt hi').trans hN).trans this)
    exact key.mono fun _ _ h => h.1
  revert main
  cases s.arclen N <;> cases (s.mapPts (timesTwoPow k)).arclen N <;> intro h
  · rfl
  · exact h.elim
  · exact h.elim
  · exact congrArg some (ScaledFl.eq_mul hF h R.k_lo R.k_hi)

end

section

variable (cosI acosI : ℝ → ℝ) (powI : ℝ → ℝ → ℝ)

theorem binary64_epsilon : (binary64 cosI acosI powI).epsilon = 2 ^ (1 - ((53 : ℕ) : ℤ)) := rfl

theorem binary64_spline_room {n D : ℕ} (hn : n ≤ 100) (hD : D ≤ 3) {k : ℤ} (hk : |k| ≤ 60) :
    SplineLengthRoom 53 (-1022) 1023 n D 32 k (-60) 60 10 66 := by
  obtain ⟨h1, h2⟩ := abs_le.mp hk
  constructor <;> first | omega | (constructor <;> omega)

/-- **C140** in binary64: splines of degree up to 3 in at most 100 dimensions, knots and parameters
up to 1024 in size, coordinates that are multiples of `2^-60` up to `2^60`, factors from `2^-60` to
`2^60`. -/
theorem C140_binary64 {n : ℕ} (hn : n ≤ 100) (hD : D ≤ 3) {k : ℤ} (hk : |k| ≤ 60)
    (s : BSpline (Fl (binary64 cosI acosI powI)) (PointN (Fl (binary64 cosI acosI powI)) n) K C D)
    (hs : ∀ i, PointOnGrid (-60) 60 (s.control_points i)) (hkn : ∀ i, AtMost 10 (s.knots i)) :
    (∀ t, AtMost 10 t →
      (s.mapPts (timesTwoPow k)).eval t = (s.eval t).mapOk (timesTwoPow k)) ∧
    ∀ N, 1 ≤ N → N < 2 ^ 32 →
      (s.mapPts (timesTwoPow k)).arclen N = (s.arclen N).map (· * twoPow _ k) := by
  have R := binary64_spline_room hn hD hk
  have hF := binary64_binary cosI acosI powI
  refine ⟨fun t ht => ?_, fun N h1 h2 =>
    C140_arclen hF (binary64_epsilon cosI acosI powI) R s hs hkn h1 h2⟩
  exact C140_points hF (binary64_epsilon cosI acosI powI) R.toSplineRoom s hs
    ⟨fun i => (hkn i).1, fun i => (hkn i).2.trans (two_zpow_mono (by norm_num)), ht.1,
      ht.2.trans (two_zpow_mono (by norm_num)), Or.inl le_rfl⟩

/-- The parameter in other units in binary64: knots that are integers up to 1024, scaled by any
power of two from `2^-50` to `2^50`. -/
theorem binary64_knot_room {k : ℤ} (hk : |k| ≤ 50) :
    KnotRoom (binary64 cosI acosI powI) (-1022) 1023 k 0 10 := by
  obtain ⟨h1, h2⟩ := abs_le.mp hk
  refine ⟨by omega, by omega, by omega, by omega, by omega, by omega, ?_, ?_⟩ <;>
  · rw [binary64_epsilon]
    exact two_zpow_mono (by omega)

/-- Integer knots meet the conditions. -/
theorem integer_knot (z : ℤ) (hz : |z| ≤ 1024) :
    OnGrid 0 10 (lit (z : ℚ) : Fl (binary64 cosI acosI powI)) :=
  onGrid_int hz (b := 10) (by simpa using hz)

/-- A clamped quadratic spline in the plane meets the conditions of both parts, for scaling the
knots by `2^-3` and the points by `2^5`; it is accepted, and can be evaluated at 1/2. -/
example : ∃ (knots : Arr (Fl (binary64 cosI acosI powI)) 7)
    (ps : Arr (PointN (Fl (binary64 cosI acosI powI)) 2) 4)
    (s : BSpline (Fl (binary64 cosI acosI powI)) (PointN (Fl (binary64 cosI acosI powI)) 2) 7 4 2),
    BSpline.new knots ps = .ok s ∧ (∀ i, OnGrid 0 10 (knots i)) ∧ (∀ i, AtMost 10 (s.knots i)) ∧
      (∀ i, PointOnGrid (-60) 60 (s.control_points i)) ∧ ps 0 ≠ ps 1 ∧
      KnotRoom (binary64 cosI acosI powI) (-1022) 1023 (-3) 0 10 := by
  have ki : ∀ i : Fin 7, |(![0, 0, 0, 1, 2, 2, 2] : Fin 7 → ℤ) i| ≤ 1024 := by decide
  have pi : ∀ i : Fin 4, |(![0, 1, 5, 3] : Fin 4 → ℤ) i| ≤ 1024 := by decide
  let knots : Arr (Fl (binary64 cosI acosI powI)) 7 :=
    fun i => lit ((![0, 0, 0, 1, 2, 2, 2] : Fin 7 → ℤ) i : ℚ)
  let ps : Arr (PointN (Fl (binary64 cosI acosI powI)) 2) 4 :=
    fun i => ⟨fun _ => lit ((![0, 1, 5, 3] : Fin 4 → ℤ) i : ℚ)⟩
  have dec : anyDecrease knots.toList = false := by
    have hlt : ∀ i j : Fin 7, (![0, 0, 0, 1, 2, 2, 2] : Fin 7 → ℤ) i
        ≤ (![0, 0, 0, 1, 2, 2, 2] : Fin 7 → ℤ) j → Scalar.lt (knots j) (knots i) = false := by
      intro i j hij
      show Scalar.lt (lit _ : Fl _) (lit _) = false
      rw [lit_int _ (ki i), lit_int _ (ki j), Bool.eq_false_iff, ne_eq, lt_fin, not_lt]
      exact_mod_cast hij
    simp only [Arr.toList, List.ofFn_succ, List.ofFn_zero, anyDecrease, Bool.or_false,
      Bool.or_eq_false_iff]
    refine ⟨hlt _ _ (by decide), hlt _ _ (by decide), hlt _ _ (by decide), hlt _ _ (by decide),
      hlt _ _ (by decide), hlt _ _ (by decide)⟩
  refine ⟨knots, ps, _, (new_generic knots ps _).2 ⟨by norm_num, rfl, dec, rfl⟩,
    fun i => integer_knot _ _ _ _ (ki i), fun i => ?_, fun i j => ?_, ?_,
    binary64_knot_room _ _ _ (by norm_num)⟩
  · have := integer_knot cosI acosI powI _ (ki i)
    exact ⟨this.1, this.2.2⟩
  · exact (integer_knot cosI acosI powI _ (pi i)).mono (by norm_num) (by norm_num)
  · intro h
    have h1 := congrArg (fun q : PointN (Fl (binary64 cosI acosI powI)) 2 => (q.coords 0).toReal) h
    simp only [ps] at h1
    rw [lit_int _ (pi 0), lit_int _ (pi 1)] at h1
    simp at h1

end

end Stroke
