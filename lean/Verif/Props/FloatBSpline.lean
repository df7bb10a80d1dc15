import Verif.Props.FloatEndpoints
import Verif.Lemmas.BSplineGeneric
import Verif.Lemmas.BSplineNew

/-!
# Floating point: B-splines with NaN, infinities and overflow (C43, C46, C49, C54, C63)
-/

namespace Stroke

variable {F : FloatFormat} {P : Type} [Point (Fl F) P] {K C D : ℕ}

open Fl

/-- All knots are finite. -/
def FiniteKnots (knots : Arr (Fl F) K) : Prop := ∀ i, (knots i).IsFinite

theorem anyDecrease_finite (l : List (Fl F)) (h : ∀ x ∈ l, x.IsFinite) :
    anyDecrease l = anyDecrease (l.map Fl.toReal) := by
  induction l with
  | nil => rfl
  | cons a l ih =>
    cases l with
    | nil => rfl
    | cons b l =>
      obtain ⟨x, hx, rfl⟩ := isFinite_iff.1 (h a (by simp))
      obtain ⟨y, hy, rfl⟩ := isFinite_iff.1 (h b (by simp))
      have ih := ih fun x hx => h x (by simp [hx])
      simp only [anyDecrease, List.map_cons, toReal_fin] at ih ⊢
      rw [ih]
      congr 1
      rw [Bool.eq_iff_iff, lt_fin]
      simp

theorem anyDecrease_finiteKnots {knots : Arr (Fl F) K} (hk : FiniteKnots knots) :
    anyDecrease knots.toList = false
      ↔ ∀ i j : Fin K, i ≤ j → (knots i).toReal ≤ (knots j).toReal := by
  rw [anyDecrease_finite, ← anyDecrease_knots]
  · unfold Arr.toList
    rw [List.map_ofFn]
    rfl
  · intro x hx
    rw [Arr.toList, List.mem_ofFn] at hx
    obtain ⟨i, rfl⟩ := hx
    exact hk i

/-- **C43** (floats): for finite knots the constructor accepts exactly the valid inputs,
whatever the rounding. -/
theorem C43_float {knots : Arr (Fl F) K} (hk : FiniteKnots knots) (ps : Arr P C) :
    (∃ b : BSpline (Fl F) P K C D, BSpline.new knots ps = .ok b)
      ↔ ValidSpline C D (fun i => (knots i).toReal) := by
  constructor
  · rintro ⟨b, hb⟩
    obtain ⟨h1, h2, h3, _⟩ := (new_generic _ _ _).1 hb
    exact ⟨h1, h2, (anyDecrease_finiteKnots hk).1 h3⟩
  · rintro ⟨h1, h2, h3⟩
    exact ⟨_, (new_generic _ _ _).2 ⟨h1, h2, (anyDecrease_finiteKnots hk).2 h3, rfl⟩⟩

/-- **C63**: NaN knots are not detected: the constructor accepts a knot vector of NaNs. -/
theorem C63_nan_knots (h1 : D < C) (h2 : K = C + D + 1) (ps : Arr P C) :
    ∃ b : BSpline (Fl F) P K C D, BSpline.new (fun _ => nan) ps = .ok b := by
  refine ⟨_, (new_generic _ _ _).2 ⟨h1, h2, ?_, rfl⟩⟩
  have : ∀ l : List (Fl F), (∀ x ∈ l, x = nan) → anyDecrease l = false := by
    intro l
    induction l with
    | nil => intro _; rfl
    | cons a l ih =>
      cases l with
      | nil => intro _; rfl
      | cons b l =>
        intro h
        have := ih fun x hx => h x (by simp [hx])
        rw [anyDecrease, this, h b (by simp)]
        rfl
  apply this
  intro x hx
  rw [Arr.toList, List.mem_ofFn] at hx
  obtain ⟨_, rfl⟩ := hx
  rfl

/-- A spline with finite knots that is clamped on neither side has degree at least 1. -/
theorem unclamped_degree {knots : Arr (Fl F) K} {ps : Arr P C} {b : BSpline (Fl F) P K C D}
    (h : BSpline.new knots ps = .ok b) (hk : FiniteKnots knots) (hu : b.knot_kind = .Unclamped) :
    1 ≤ D := by
  obtain ⟨h1, h2, h3, rfl⟩ := (new_generic _ _ _).1 h
  by_contra hD
  have hD : D = 0 := by omega
  subst hD
  simp only at hu
  have hf : frontB 0 knots (knots ⟨0, by omega⟩) = true := by
    unfold frontB
    rw [List.all_eq_true]
    intro x hx
    rw [List.mem_take_iff_getElem] at hx
    obtain ⟨i, hi, rfl⟩ := hx
    simp only [Arr.toList, List.getElem_ofFn]
    have hi0 : i = 0 := by omega
    subst hi0
    obtain ⟨r, hr, e⟩ := isFinite_iff.1 (hk ⟨0, by omega⟩)
    rw [e, fin_sub, sub_self, F.round_of_mem F.zero_ok, epsilon_eq]
    show Scalar.lt (fin |0| _) _ = true
    rw [lt_fin, abs_zero]
    exact F.epsilon_pos
  rw [hf] at hu
  cases hb : backB 0 knots (knots ⟨K - 1, by omega⟩) <;> rw [hb] at hu <;> simp [kindB] at hu

/-- **C46** (floats) and **C63**: for a spline with finite knots and every float parameter that
is not in the knot domain — NaN and the infinities included — `eval` is
`Err(KnotDomainViolation)`. -/
theorem C46_float {knots : Arr (Fl F) K} {ps : Arr P C} {b : BSpline (Fl F) P K C D}
    (h : BSpline.new knots ps = .ok b) (hk : FiniteKnots knots) :
    ∃ lo hi, b.knotDomain = some (lo, hi) ∧ Scalar.le lo hi = true ∧
      ∀ t, (Scalar.le lo t && Scalar.le t hi) = false → b.eval t = .err .KnotDomainViolation := by
  obtain ⟨h1, h2, h3, hb⟩ := (new_generic _ _ _).1 h
  obtain ⟨i, j, hi, hj, hiD, hCj, hd⟩ := knotDomain_generic (b := b) h2
  have hkn : b.knots = knots := by rw [hb]
  rw [hkn] at hd
  have hmono := (anyDecrease_finiteKnots hk).1 h3 ⟨i, hi⟩ ⟨j, hj⟩ (by
    show i ≤ j
    omega)
  obtain ⟨lo, hlo, elo⟩ := isFinite_iff.1 (hk ⟨i, hi⟩)
  obtain ⟨hi', hhi, ehi⟩ := isFinite_iff.1 (hk ⟨j, hj⟩)
  rw [elo, ehi] at hmono hd
  refine ⟨_, _, hd, le_fin.2 hmono, fun t ht => ?_⟩
  have out : (Scalar.lt t (fin lo hlo) || Scalar.lt (fin hi' hhi) t) = true →
      b.eval t = .err .KnotDomainViolation := by
    intro hout
    unfold BSpline.eval
    rw [hd]
    simp only [Outcome.ofOption_some, Outcome.ok_bind, hout, if_true]
  cases t with
  | nan =>
    refine eval_unordered h1 h2 (fun hu => ?_) lt_nan_left lt_nan_right le_nan_right eq_nan_left
    have := unclamped_degree h hk hu
    omega
  | inf s =>
    apply out
    cases s
    · rw [Bool.or_eq_true]
      right
      show decide (((hi' : ℝ) : EReal) < ⊤) = true
      simp
    · rw [Bool.or_eq_true]
      left
      show decide (⊥ < ((lo : ℝ) : EReal)) = true
      simp
  | fin r hr =>
    apply out
    rw [Bool.or_eq_true, lt_fin, lt_fin]
    rw [Bool.and_eq_false_iff, ← Bool.not_eq_true, ← Bool.not_eq_true, le_fin, le_fin] at ht
    rcases ht with ht | ht
    · exact Or.inl (not_le.1 ht)
    · exact Or.inr (not_le.1 ht)

/-- **C63**: evaluating at NaN is a `KnotDomainViolation`. -/
theorem C63_nan_parameter {knots : Arr (Fl F) K} {ps : Arr P C} {b : BSpline (Fl F) P K C D}
    (h : BSpline.new knots ps = .ok b) (hk : FiniteKnots knots) :
    b.eval nan = .err .KnotDomainViolation := by
  obtain ⟨lo, hi, _, _, h3⟩ := C46_float h hk
  exact h3 nan (by simp)

/-- **C49** (floats): evaluating exactly at knots[C] returns the last control point unchanged,
whatever the rounding. -/
theorem C49_float_end {knots : Arr (Fl F) K} {ps : Arr P C} {b : BSpline (Fl F) P K C D}
    (h : BSpline.new knots ps = .ok b) (hk : FiniteKnots knots) (hC : C < K) (hC1 : C - 1 < C) :
    b.eval (knots ⟨C, hC⟩) = .ok (ps ⟨C - 1, hC1⟩) := by
  obtain ⟨h1, h2, h3, hb⟩ := (new_generic _ _ _).1 h
  obtain ⟨i, j, hi, hj, hiD, hCj, hd⟩ := knotDomain_generic (b := b) h2
  have hkn : b.knots = knots := by rw [hb]
  have hps : b.control_points = ps := by rw [hb]
  rw [hkn] at hd
  have hm := (anyDecrease_finiteKnots hk).1 h3
  have m1 := hm ⟨i, hi⟩ ⟨C, hC⟩ (by show i ≤ C; omega)
  have m2 := hm ⟨C, hC⟩ ⟨j, hj⟩ hCj
  obtain ⟨x, hx, ex⟩ := isFinite_iff.1 (hk ⟨i, hi⟩)
  obtain ⟨y, hy, ey⟩ := isFinite_iff.1 (hk ⟨j, hj⟩)
  obtain ⟨z, hz, ez⟩ := isFinite_iff.1 (hk ⟨C, hC⟩)
  rw [ex, ez] at m1
  rw [ey, ez] at m2
  rw [ex, ey] at hd
  unfold BSpline.eval
  rw [hd]
  have hin : (Scalar.lt (knots ⟨C, hC⟩) (fin x hx) || Scalar.lt (fin y hy) (knots ⟨C, hC⟩))
      = false := by
    rw [ez, Bool.or_eq_false_iff, ← Bool.not_eq_true, ← Bool.not_eq_true, lt_fin, lt_fin]
    exact ⟨not_lt.2 m1, not_lt.2 m2⟩
  simp only [Outcome.ofOption_some, Outcome.ok_bind, hin, Bool.false_eq_true, if_false]
  unfold BSpline.deBoorIterative
  rw [hkn, Arr.get?_lt _ hC]
  have heq : Scalar.eq (knots ⟨C, hC⟩) (knots ⟨C, hC⟩) = true := by
    rw [ez, eq_fin]
  simp only [Outcome.ofOption_some, Outcome.ok_bind, heq, if_true]
  rw [usub_le (by omega), hps]
  simp only [Option.bind_eq_bind, Option.bind_some]
  rw [Arr.get?_lt _ hC1]
  rfl

/-! ### The error for NaN interpolation factors (C54) -/

/-- **C54**: with finite knots whose total span does not overflow, no parameter at all makes
`eval` return `EvaluationAlphaIsNaN`.  Missing for the full claim: knots so far apart that
their difference is infinite, for which it is false (`C54_false`). -/
theorem C54_partial {knots : Arr (Fl F) K} {ps : Arr P C} {b : BSpline (Fl F) P K C D}
    (h : BSpline.new knots ps = .ok b) (hk : FiniteKnots knots)
    (hspan : ∀ i j : Fin K, (knots j).toReal - (knots i).toReal ≤ F.max) (t : Fl F) :
    b.eval t ≠ .err .EvaluationAlphaIsNaN := by
  obtain ⟨lo, hi, hd, _, hout⟩ := C46_float h hk
  by_cases ht : (Scalar.le lo t && Scalar.le t hi) = true
  swap
  · rw [hout t (by simpa using ht)]
    simp
  obtain ⟨h1, h2, h3, hb⟩ := (new_generic _ _ _).1 h
  obtain ⟨i, j, hi', hj', _, _, hd'⟩ := knotDomain_generic (b := b) h2
  have hkn : b.knots = knots := by rw [hb]
  rw [hd, hkn, Option.some.injEq, Prod.mk.injEq] at hd'
  obtain ⟨rfl, rfl⟩ := hd'
  obtain ⟨x, hx, ex⟩ := isFinite_iff.1 (hk ⟨i, hi'⟩)
  obtain ⟨y, hy, ey⟩ := isFinite_iff.1 (hk ⟨j, hj'⟩)
  have hle : ∀ a c : Fin K, (knots a).toReal - (knots c).toReal ≤ F.max ∧
      -F.max ≤ (knots a).toReal - (knots c).toReal := by
    intro a c
    have := hspan a c
    exact ⟨hspan c a, by linarith⟩
  rw [ex, ey, Bool.and_eq_true] at ht
  -- the parameter is finite
  obtain ⟨r, hr, rfl⟩ : ∃ r hr, t = fin r hr := by
    cases t with
    | nan => simp at ht
    | inf s =>
      exfalso
      cases s
      · have := ht.2
        change decide ((⊤ : EReal) ≤ ((y : ℝ) : EReal)) = true at this
        simp at this
      · have := ht.1
        change decide (((x : ℝ) : EReal) ≤ (⊥ : EReal)) = true at this
        simp at this
    | fin r hr => exact ⟨r, hr, rfl⟩
  rw [le_fin, le_fin] at ht
  have key : ∀ k r' j', BSpline.alpha (D := D) b.knots (fin r hr) k r' j'
      ≠ .err .EvaluationAlphaIsNaN := by
    intro k r' j'
    unfold BSpline.alpha
    refine bind_ne_err (ofOption_ne_err _ _) fun kl hkl => ?_
    refine bind_ne_err (ofOption_ne_err _ _) fun kr hkr => ?_
    have ex1 : ∀ (o : Option ℕ) (z : Fl F),
        Outcome.ofOption (do b.knots.get? (← o)) = .ok z → ∃ c : Fin K, z = knots c := by
      intro o z hz
      cases o with
      | none => simp at hz
      | some m =>
        simp only [Option.bind_eq_bind, Option.bind_some, hkn] at hz
        by_cases hm : m < K
        · rw [Arr.get?_lt _ hm] at hz
          simp only [Outcome.ofOption_some, Outcome.ok.injEq] at hz
          exact ⟨_, hz.symm⟩
        · rw [Arr.get?_ge _ (by omega)] at hz
          simp at hz
    obtain ⟨c1, rfl⟩ := ex1 _ _ hkl
    obtain ⟨c2, rfl⟩ := ex1 _ _ hkr
    obtain ⟨p, hp, ep⟩ := isFinite_iff.1 (hk c1)
    obtain ⟨q, hq, eq⟩ := isFinite_iff.1 (hk c2)
    have b1 := hle ⟨j, hj'⟩ c1
    have b2 := hle ⟨i, hi'⟩ c1
    have b3 := hle c2 c1
    rw [ey, ep] at b1
    rw [ex, ep] at b2
    rw [eq, ep] at b3
    simp only [toReal_fin] at b1 b2 b3
    have num : |r - p| ≤ F.max := by
      rw [abs_le]
      constructor <;> linarith
    have den : |q - p| ≤ F.max := abs_le.2 ⟨b3.2, b3.1⟩
    simp only []
    rw [ep, eq, fin_sub, fin_sub, F.round_of_le num, F.round_of_le den]
    have notnan : ∀ z : Fl F, z.isNaN = false →
        (if Scalar.isNaN z = true then Outcome.err BSplineError.EvaluationAlphaIsNaN else pure z)
          ≠ Outcome.err BSplineError.EvaluationAlphaIsNaN := by
      intro z hz
      have : Scalar.isNaN z = false := hz
      rw [this]
      simp
    apply notnan
    split_ifs with c3 c4
    · rw [lit_zero]; rfl
    · rw [lit_one]; rfl
    · by_cases hz : F.rnd (q - p) = 0
      · exfalso
        apply c4
        rw [epsilon_eq]
        show Scalar.lt (fin |F.rnd (q - p)| _) _ = true
        rw [lt_fin, hz, abs_zero]
        exact F.epsilon_pos
      · rw [fin_div hz]
        exact F.round_not_nan _
  unfold BSpline.eval
  rw [hd]
  refine bind_ne_err (by simp) fun p _ => ?_
  obtain ⟨_, _⟩ := p
  simp only []
  split_ifs
  · simp
  · exact eval_ne_alphaNaN key

/-- The hypotheses of `C54_partial` hold: a quadratic spline with six integer knots. -/
example : ∃ (knots : Arr (Fl F) 6) (b : BSpline (Fl F) (PointN (Fl F) 2) 6 3 2),
    BSpline.new knots (fun _ => PointN.new fun _ => lit 3) = .ok b ∧ FiniteKnots knots ∧
    ∀ i j : Fin 6, (knots j).toReal - (knots i).toReal ≤ F.max := by
  have hv : ∀ i : Fin 6, (lit (((i : ℕ) : ℤ) : ℚ) : Fl F).toReal = (i : ℕ) := by
    intro i
    rw [lit_int _ (by rw [abs_of_nonneg (Int.natCast_nonneg _)]; have := i.isLt; omega), toReal_fin]
    simp
  have hf : FiniteKnots (F := F) (fun i : Fin 6 => lit (((i : ℕ) : ℤ) : ℚ)) := by
    intro i
    show (lit (((i : ℕ) : ℤ) : ℚ) : Fl F).IsFinite
    rw [lit_int _ (by rw [abs_of_nonneg (Int.natCast_nonneg _)]; have := i.isLt; omega)]
    trivial
  obtain ⟨b, hb⟩ := (C43_float (D := 2) hf
    (fun _ : Fin 3 => PointN.new fun _ : Fin 2 => (lit 3 : Fl F))).2 ⟨by norm_num, by norm_num, by
      intro i j hij
      show (lit (((i : ℕ) : ℤ) : ℚ) : Fl F).toReal ≤ (lit (((j : ℕ) : ℤ) : ℚ) : Fl F).toReal
      rw [hv, hv]
      exact_mod_cast hij⟩
  refine ⟨_, b, hb, hf, fun i j => ?_⟩
  rw [hv, hv]
  have : ((j : ℕ) : ℝ) ≤ 6 := by exact_mod_cast j.isLt.le
  have : (0 : ℝ) ≤ (i : ℕ) := Nat.cast_nonneg _
  linarith [F.max_ge]

theorem round_inf {x : ℝ} (hx : 0 ≤ x) (h : F.max < F.rnd x) : F.round x = inf false := by
  unfold FloatFormat.round
  rw [dif_neg]
  · simp [hx]
  · rw [not_le]
    exact h.trans_le (le_abs_self _)

/-- Two knots at `-max`, two at `max`. -/
noncomputable def extremeKnots (F : FloatFormat) : Arr (Fl F) 4 := fun i =>
  if (i : ℕ) < 2 then fin (-F.max) ⟨F.neg_mem _ F.max_mem, by
      rw [abs_neg, abs_of_pos F.max_pos]⟩
  else fin F.max ⟨F.max_mem, (abs_of_pos F.max_pos).le⟩

theorem alphaNaN_of_overflow (ps : Arr P 2) {r : ℝ} (hr : r ∈ F.grid ∧ |r| ≤ F.max)
    (h1 : r < F.max) (h2 : F.max < F.rnd (r + F.max)) :
    ∃ b : BSpline (Fl F) P 4 2 1, BSpline.new (extremeKnots F) ps = .ok b ∧
      b.eval (fin r hr) = .err .EvaluationAlphaIsNaN := by
  have hM := F.max_pos
  have hk : FiniteKnots (extremeKnots F) := by
    intro i
    unfold extremeKnots
    split_ifs <;> trivial
  have hmono : anyDecrease (extremeKnots F).toList = false := by
    rw [anyDecrease_finiteKnots hk]
    intro i j hij
    have hij' : (i : ℕ) ≤ j := hij
    unfold extremeKnots
    split_ifs <;> simp only [toReal_fin] <;> first | omega | linarith
  have hsub : ∀ x : Fl F, x.IsFinite → Scalar.lt (Scalar.abs (x - x)) Scalar.epsilon = true := by
    intro x hx
    obtain ⟨y, hy, rfl⟩ := isFinite_iff.1 hx
    rw [fin_sub, sub_self, F.round_of_mem F.zero_ok, epsilon_eq]
    show Scalar.lt (fin |0| _) _ = true
    rw [lt_fin, abs_zero]
    exact F.epsilon_pos
  have hf : frontB 1 (extremeKnots F) (extremeKnots F ⟨0, by omega⟩) = true := by
    unfold frontB
    rw [List.all_eq_true]
    intro x hx
    have : (extremeKnots F).toList.take (1 + 1) = [extremeKnots F 0, extremeKnots F 0] := rfl
    rw [this] at hx
    simp only [List.mem_cons, List.not_mem_nil, or_false, or_self] at hx
    rw [hx]
    exact hsub _ (hk _)
  have hb : backB 1 (extremeKnots F) (extremeKnots F ⟨4 - 1, by omega⟩) = true := by
    unfold backB
    rw [List.all_eq_true]
    intro x hx
    have : (extremeKnots F).toList.drop (4 - 1 - 1) = [extremeKnots F 3, extremeKnots F 3] := rfl
    rw [this] at hx
    simp only [List.mem_cons, List.not_mem_nil, or_false, or_self] at hx
    rw [hx]
    exact hsub _ (hk _)
  refine ⟨_, (new_generic _ _ _).2 ⟨by norm_num, by norm_num, hmono, rfl⟩, ?_⟩
  rw [hf, hb]
  have e1 : extremeKnots F ⟨1, by omega⟩ = fin (-F.max) ⟨F.neg_mem _ F.max_mem, by
      rw [abs_neg, abs_of_pos F.max_pos]⟩ := rfl
  have e2 : extremeKnots F ⟨2, by omega⟩ = fin F.max ⟨F.max_mem, (abs_of_pos F.max_pos).le⟩ := rfl
  have hlo : ¬ r < -F.max := not_lt.2 (abs_le.1 hr.2).1
  have hhi : ¬ F.max < r := not_lt.2 h1.le
  have hin : (Scalar.lt (fin r hr) (extremeKnots F ⟨1, by omega⟩)
      || Scalar.lt (extremeKnots F ⟨2, by omega⟩) (fin r hr)) = false := by
    rw [e1, e2, Bool.or_eq_false_iff, ← Bool.not_eq_true, ← Bool.not_eq_true, lt_fin, lt_fin]
    exact ⟨hlo, hhi⟩
  have hne : Scalar.eq (fin r hr) (extremeKnots F ⟨2, by omega⟩) = false := by
    rw [e2, ← Bool.not_eq_true, eq_fin]
    exact h1.ne
  have hle : Scalar.le (extremeKnots F ⟨1, by omega⟩) (fin r hr) = true := by
    rw [e1, le_fin]
    exact not_lt.1 hlo
  have hlt : Scalar.lt (fin r hr) (extremeKnots F ⟨2, by omega⟩) = true := by
    rw [e2, lt_fin]
    exact h1
  have hd : (⟨extremeKnots F, .Clamped, ps⟩ : BSpline (Fl F) P 4 2 1).knotDomain
      = some (extremeKnots F ⟨1, by omega⟩, extremeKnots F ⟨2, by omega⟩) := rfl
  have hspan : (⟨extremeKnots F, .Clamped, ps⟩ : BSpline (Fl F) P 4 2 1).knotSpanStart (fin r hr)
      = some (some 1) := by
    show BSpline.spanClamped _ _ = _
    unfold BSpline.spanClamped
    rw [usub_le (by norm_num)]
    simp only [Option.bind_eq_bind, Option.bind_some]
    rw [Arr.get?_lt _ (show 2 - 1 + 1 < 4 by norm_num)]
    simp only [Option.bind_some]
    rw [if_neg (by rw [hne]; simp)]
    unfold BSpline.spanClampedLoop
    rw [if_pos (by norm_num)]
    simp only [Option.bind_eq_bind]
    rw [Arr.get?_lt _ (show (1 + (2 - 1)) / 2 < 4 by norm_num)]
    simp only [Option.bind_some]
    rw [if_pos hle, Arr.get?_lt _ (show (1 + (2 - 1)) / 2 + 1 < 4 by norm_num)]
    simp only [Option.bind_some, Option.pure_def]
    rw [if_pos hlt]
  have halpha : BSpline.alpha (D := 1) (extremeKnots F) (fin r hr) 1 1 1
      = .err .EvaluationAlphaIsNaN := by
    unfold BSpline.alpha
    rw [usub_le (by norm_num), usub_le (by norm_num)]
    simp only [Option.bind_eq_bind, Option.bind_some]
    rw [Arr.get?_lt _ (show 1 + 1 - 1 < 4 by norm_num),
      Arr.get?_lt _ (show 1 + 1 + 1 - 1 < 4 by norm_num)]
    simp only [Outcome.ofOption_some, Outcome.ok_bind]
    change extremeKnots F ⟨1 + 1 - 1, _⟩ = _ at e1
    change extremeKnots F ⟨1 + 1 + 1 - 1, _⟩ = _ at e2
    rw [e1, e2, fin_sub, fin_sub, sub_neg_eq_add, sub_neg_eq_add,
      round_inf (by linarith [F.max_ge, F.max_ge, abs_le.1 hr.2]) h2,
      round_inf (by linarith) (h2.trans_le (F.rnd_mono (by linarith)))]
    have c1 : Scalar.lt (inf false : Fl F) Scalar.epsilon = false := by
      rw [epsilon_eq, ← Bool.not_eq_true]
      intro hc
      change decide ((⊤ : EReal) < ((F.epsilon : ℝ) : EReal)) = true at hc
      simp at hc
    have c2 : Scalar.lt (Scalar.abs (inf false : Fl F)) Scalar.epsilon = false := c1
    rw [c1, c2]
    rfl
  unfold BSpline.eval
  rw [show kindB true true = KnotVectorKind.Clamped from rfl, hd]
  simp only [Outcome.ofOption_some, Outcome.ok_bind]
  rw [if_neg (by rw [hin]; simp)]
  unfold BSpline.deBoorIterative
  rw [hspan]
  rw [Arr.get?_lt _ (show 2 < 4 by norm_num)]
  simp only [Outcome.ofOption_some, Outcome.ok_bind]
  rw [if_neg (by rw [hne]; simp)]
  have hcopy : ∃ d, BSpline.copyPoints (D := 1) ps 1 (fun _ => Point.default) = some d := ⟨_, rfl⟩
  obtain ⟨d, hd'⟩ := hcopy
  rw [hd']
  simp only [Outcome.ofOption_some, Outcome.ok_bind]
  have hround : BSpline.deBoorRound (D := 1) (extremeKnots F) (fin r hr) 1 1 d
      = .err .EvaluationAlphaIsNaN := by
    unfold BSpline.deBoorRound
    rw [forRangeRev_first (le_refl 1), halpha]
    rfl
  rw [forRange_first (by norm_num), hround]
  rfl

/-- **C54** is false of the code: in binary64 a linear spline with the finite knots
`[-MAX, -MAX, MAX, MAX]` is accepted and evaluated inside its domain at 2¹⁰²³ it returns
`Err(EvaluationAlphaIsNaN)`. -/
theorem C54_false (cosI acosI : ℝ → ℝ) (powI : ℝ → ℝ → ℝ)
    (ps : Arr (PointN (Fl (binary64 cosI acosI powI)) 2) 2) :
    ∃ (knots : Arr (Fl (binary64 cosI acosI powI)) 4) (b : BSpline _ _ 4 2 1) (t : Fl _),
      FiniteKnots knots ∧ BSpline.new knots ps = .ok b ∧ t.IsFinite ∧
      b.eval t = .err .EvaluationAlphaIsNaN := by
  revert ps
  set F := binary64 cosI acosI powI with hF
  intro ps
  have hmax : F.max = ((2 : ℝ) ^ 53 - 1) * 2 ^ 971 := rfl
  have e24 : (2 : ℝ) ^ 1024 = 2 ^ 53 * 2 ^ 971 := by rw [← pow_add]
  have e23 : (2 : ℝ) ^ 1023 = 2 ^ 52 * 2 ^ 971 := by rw [← pow_add]
  have hz : (1 : ℝ) ≤ 2 ^ 971 := one_le_pow₀ (by norm_num)
  have m23 : (2 : ℝ) ^ 1023 ∈ F.grid := by
    refine ⟨1, 1023, by norm_num, by norm_num, ?_⟩
    rw [Int.cast_one, one_mul]
    exact (zpow_natCast (2 : ℝ) 1023).symm
  have m24 : (2 : ℝ) ^ 1024 ∈ F.grid := by
    refine ⟨1, 1024, by norm_num, by norm_num, ?_⟩
    rw [Int.cast_one, one_mul]
    exact (zpow_natCast (2 : ℝ) 1024).symm
  have r1 := F.rnd_of_mem _ m24
  generalize (2 : ℝ) ^ 1024 = w at *
  generalize (2 : ℝ) ^ 1023 = v at *
  generalize (2 : ℝ) ^ 971 = z at *
  have hr : v ∈ F.grid ∧ |v| ≤ F.max := by
    refine ⟨m23, ?_⟩
    rw [hmax, e23, abs_of_nonneg (by positivity)]
    linarith
  obtain ⟨b, hb, he⟩ := alphaNaN_of_overflow ps hr (by rw [hmax, e23]; linarith) (by
    have : F.rnd w ≤ F.rnd (v + F.max) := F.rnd_mono (by rw [hmax, e23, e24]; linarith)
    rw [r1] at this
    refine lt_of_lt_of_le ?_ this
    rw [hmax, e24]
    linarith)
  refine ⟨extremeKnots F, b, fin v hr, ?_, hb, trivial, he⟩
  intro i
  unfold extremeKnots
  split_ifs <;> trivial

end Stroke
