import Verif.Props.FloatBSpline
import Verif.Lemmas.BSplineEval

/-!
# Floating point: evaluation of clamped B-splines succeeds (C47)
-/

set_option linter.unusedSectionVars false

namespace Stroke

section Generic
variable {S P : Type} [Scalar S] [Point S P] {K C D : ℕ}

theorem bind_ne_panic {α β : Type} {x : Outcome α} {f : α → Outcome β}
    (h1 : x ≠ .panic) (h2 : ∀ a, x = .ok a → f a ≠ .panic) : (x >>= f) ≠ .panic := by
  cases x with
  | ok a => exact h2 a rfl
  | err e' => simp
  | panic => exact absurd rfl h1

theorem forRange_ne_panic {σ : Type} {lo hi : ℕ} {s : σ}
    {body : ℕ → σ → Outcome σ} (h : ∀ i s, lo ≤ i → i < hi → body i s ≠ .panic) :
    forRange lo hi s body ≠ .panic := by
  induction hi with
  | zero => rw [forRange_empty (Nat.zero_le _)]; simp
  | succ hi ih =>
    by_cases hle : lo ≤ hi
    · rw [forRange_succ hle]
      exact bind_ne_panic (ih fun i s h1 h2 => h i s h1 (by omega)) fun s' _ =>
        h hi s' hle (by omega)
    · rw [forRange_empty (by omega)]; simp

theorem forRangeRev_ne_panic {σ : Type} {lo hi : ℕ} {s : σ}
    {body : ℕ → σ → Outcome σ} (h : ∀ i s, lo ≤ i → i < hi → body i s ≠ .panic) :
    forRangeRev lo hi s body ≠ .panic := by
  induction hi generalizing s with
  | zero => rw [forRangeRev_empty (Nat.zero_le _)]; simp
  | succ hi ih =>
    by_cases hle : lo ≤ hi
    · rw [forRangeRev_first hle]
      exact bind_ne_panic (h hi s hle (by omega)) fun s' _ =>
        ih fun i s h1 h2 => h i s h1 (by omega)
    · rw [forRangeRev_empty (by omega)]; simp

omit [Point S P] in
theorem copyPoints_total (ps : Arr P C) {k : ℕ} (hk : D ≤ k) (hkC : k ≤ C) (d : Arr P (D + 1)) :
    ∃ s : Arr P (D + 1), BSpline.copyPoints ps k d = some s := by
  unfold BSpline.copyPoints
  obtain ⟨s, hs, _⟩ := forRange_inv (m := Option) (lo := 0) (hi := D) (s := d)
    (body := fun j d => do
      Arr.set? d j (← Arr.get? ps (← usub (j + k) D)))
    (fun _ _ => True) (by omega) trivial
    (by
      intro i s _ hi _
      rw [usub_le (by omega)]
      simp only [Option.bind_eq_bind, Option.bind_some]
      rw [Arr.get?_lt _ (show i + k - D < C by omega)]
      simp only [Option.bind_some]
      rw [Arr.set?_lt _ (by omega)]
      exact ⟨_, rfl, trivial⟩)
  exact ⟨s, hs⟩

/-- Over any scalar type: with a span `D ≤ k ≤ C` the algorithm accesses only what exists. -/
theorem deBoorIterative_ne_panic (b : BSpline S P K C D) (hKC : K = C + D + 1) (hC : 1 ≤ C) (t : S)
    {k : ℕ} (hs : b.knotSpanStart t = some (some k)) (h1 : D ≤ k) (h2 : k ≤ C) :
    b.deBoorIterative t ≠ .panic := by
  unfold BSpline.deBoorIterative
  rw [Arr.get?_lt _ (show C < K by omega), hs]
  simp only [Outcome.ofOption_some, Outcome.ok_bind]
  split_ifs
  · rw [usub_le hC]
    simp only [Option.bind_eq_bind, Option.bind_some]
    rw [Arr.get?_lt _ (show C - 1 < C by omega)]
    simp
  · obtain ⟨s, e⟩ := copyPoints_total b.control_points h1 h2 (fun _ => (Point.default : P))
    rw [e]
    simp only [Outcome.ofOption_some, Outcome.ok_bind]
    refine bind_ne_panic (forRange_ne_panic fun r d hr1 hr2 => ?_) fun d _ => ?_
    · refine forRangeRev_ne_panic fun j d hj1 hj2 => ?_
      refine bind_ne_panic ?_ fun a _ => ?_
      · unfold BSpline.alpha
        rw [usub_le (show D ≤ j + k by omega), usub_le (show r ≤ j + 1 + k by omega)]
        simp only [Option.bind_eq_bind, Option.bind_some]
        rw [Arr.get?_lt _ (show j + k - D < K by omega),
          Arr.get?_lt _ (show j + 1 + k - r < K by omega)]
        simp only [Outcome.ofOption_some, Outcome.ok_bind]
        split_ifs <;> simp
      · rw [usub_le (show 1 ≤ j by omega)]
        simp only [Option.bind_eq_bind, Option.bind_some]
        rw [Arr.get?_lt _ (show j - 1 < D + 1 by omega), Arr.get?_lt _ hj2]
        simp only [Outcome.ofOption_some, Outcome.ok_bind]
        rw [Arr.set?_lt _ hj2]
        simp
    · rw [Arr.get?_lt _ (Nat.lt_succ_self D)]
      simp

/-- Over any scalar type: the only error of the algorithm itself is the NaN factor, if a span was
found. -/
theorem deBoorIterative_err (b : BSpline S P K C D) (t : S)
    {k : ℕ} (hs : b.knotSpanStart t = some (some k)) {e : BSplineError}
    (he : e ≠ .EvaluationAlphaIsNaN) : b.deBoorIterative t ≠ .err e := by
  unfold BSpline.deBoorIterative
  refine bind_ne_err (ofOption_ne_err _ _) fun kC _ => ?_
  split_ifs
  · exact ofOption_ne_err _ _
  · rw [hs]
    simp only [Outcome.ofOption_some, Outcome.ok_bind]
    refine bind_ne_err (ofOption_ne_err _ _) fun d _ => ?_
    refine bind_ne_err (forRange_ne_err fun r d _ _ => ?_) fun d _ => ofOption_ne_err _ _
    refine forRangeRev_ne_err fun j d _ _ => ?_
    refine bind_ne_err ?_ fun a _ => ?_
    · unfold BSpline.alpha
      refine bind_ne_err (ofOption_ne_err _ _) fun kl _ => ?_
      refine bind_ne_err (ofOption_ne_err _ _) fun kr _ => ?_
      simp only []
      generalize (if Scalar.lt (t - kl) Scalar.epsilon = true then (lit 0 : S)
        else if Scalar.lt (Scalar.abs (kr - kl)) Scalar.epsilon = true then lit 1
          else (t - kl) / (kr - kl)) = z
      split_ifs
      · simpa using he.symm
      · simp
    refine bind_ne_err (ofOption_ne_err _ _) fun a _ => ?_
    refine bind_ne_err (ofOption_ne_err _ _) fun a _ => ?_
    exact ofOption_ne_err _ _

end Generic

open Fl

variable {F : FloatFormat} {P : Type} [Point (Fl F) P] {K C D : ℕ}

/-- On finite knots, the binary search behaves as with real numbers. -/
theorem spanLoop_finite {knots : Arr (Fl F) K} (hk : FiniteKnots knots) {r : ℝ} (hr : r ∈ F.grid ∧ |r| ≤ F.max)
    (n : ℕ) : ∀ low high : ℕ, high + 1 - low ≤ n →
    BSpline.spanClampedLoop knots (fin r hr) low high
      = BSpline.spanClampedLoop (fun i => (knots i).toReal) r low high := by
  induction n with
  | zero =>
    intro low high h
    rw [BSpline.spanClampedLoop, BSpline.spanClampedLoop, if_neg (by omega), if_neg (by omega)]
  | succ n ih =>
    intro low high h
    rw [BSpline.spanClampedLoop, BSpline.spanClampedLoop]
    split_ifs with hle
    · simp only []
      by_cases hm : (low + high) / 2 < K
      · rw [Arr.get?_lt _ hm, Arr.get?_lt _ hm]
        simp only [Option.bind_eq_bind, Option.bind_some]
        obtain ⟨x, hx, ex⟩ := isFinite_iff.1 (hk ⟨(low + high) / 2, hm⟩)
        rw [ex]
        simp only [toReal_fin]
        have e1 : (Scalar.le (fin x hx) (fin r hr) : Bool) = Scalar.le x r := by
          rw [Bool.eq_iff_iff, le_fin, le_real]; simp
        have e2 : (Scalar.lt (fin r hr) (fin x hx) : Bool) = Scalar.lt r x := by
          rw [Bool.eq_iff_iff, lt_fin, lt_real]; simp
        rw [e1, e2, ih _ high (by omega)]
        by_cases h0 : (low + high) / 2 = 0
        · rw [if_pos h0, if_pos h0]
          by_cases hm' : (low + high) / 2 + 1 < K
          · rw [Arr.get?_lt _ hm', Arr.get?_lt _ hm']
            simp only [Option.bind_some]
            obtain ⟨y, hy, ey⟩ := isFinite_iff.1 (hk ⟨(low + high) / 2 + 1, hm'⟩)
            rw [ey]
            simp only [toReal_fin]
            have e3 : (Scalar.lt (fin r hr) (fin y hy) : Bool) = Scalar.lt r y := by
              rw [Bool.eq_iff_iff, lt_fin, lt_real]; simp
            rw [e3]
            rfl
          · rw [Arr.get?_ge knots (by omega), Arr.get?_ge (fun i => (knots i).toReal) (by omega)]
            rfl
        · rw [if_neg h0, if_neg h0, ih low _ (by omega)]
          by_cases hm' : (low + high) / 2 + 1 < K
          · rw [Arr.get?_lt _ hm', Arr.get?_lt _ hm']
            simp only [Option.bind_some]
            obtain ⟨y, hy, ey⟩ := isFinite_iff.1 (hk ⟨(low + high) / 2 + 1, hm'⟩)
            rw [ey]
            simp only [toReal_fin]
            have e3 : (Scalar.lt (fin r hr) (fin y hy) : Bool) = Scalar.lt r y := by
              rw [Bool.eq_iff_iff, lt_fin, lt_real]; simp
            rw [e3]
            rfl
          · rw [Arr.get?_ge knots (by omega), Arr.get?_ge (fun i => (knots i).toReal) (by omega)]
            rfl
      · rw [Arr.get?_ge knots (show K ≤ (low + high) / 2 by omega),
          Arr.get?_ge (fun i => (knots i).toReal) (show K ≤ (low + high) / 2 by omega)]
        rfl
    · rfl

/-- The first `D + 1` knots are equal. -/
def ClampedFront (D : ℕ) (knots : Arr (Fl F) K) : Prop :=
  ∀ i j : Fin K, i.val ≤ D → j.val ≤ D → knots i = knots j

/-- The last `D + 1` knots are equal. -/
def ClampedBack (D : ℕ) (knots : Arr (Fl F) K) : Prop :=
  ∀ i j : Fin K, K ≤ i.val + D + 1 → K ≤ j.val + D + 1 → knots i = knots j

theorem frontB_true {knots : Arr (Fl F) K} (hk : FiniteKnots knots) (hf : ClampedFront D knots)
    (h0 : 0 < K) : frontB D knots (knots ⟨0, h0⟩) = true := by
  unfold frontB
  rw [List.all_eq_true]
  intro x hx
  rw [List.mem_take_iff_getElem] at hx
  obtain ⟨i, hi, rfl⟩ := hx
  simp only [Arr.toList, List.getElem_ofFn, List.length_ofFn] at hi ⊢
  rw [hf ⟨i, by omega⟩ ⟨0, h0⟩ (by simp only; omega) (Nat.zero_le _)]
  obtain ⟨r, hr, e⟩ := isFinite_iff.1 (hk ⟨0, h0⟩)
  rw [e, fin_sub, sub_self, F.round_of_mem F.zero_ok, epsilon_eq]
  show Scalar.lt (fin |0| _) _ = true
  rw [lt_fin, abs_zero]
  exact F.epsilon_pos

theorem backB_true {knots : Arr (Fl F) K} (hk : FiniteKnots knots) (hf : ClampedBack D knots)
    (h0 : K - 1 < K) : backB D knots (knots ⟨K - 1, h0⟩) = true := by
  unfold backB
  rw [List.all_eq_true]
  intro x hx
  rw [List.mem_drop_iff_getElem] at hx
  obtain ⟨i, hi, rfl⟩ := hx
  simp only [Arr.toList, List.getElem_ofFn, List.length_ofFn] at hi ⊢
  rw [hf ⟨K - D - 1 + i, by omega⟩ ⟨K - 1, h0⟩ (by simp only; omega) (by simp only; omega)]
  obtain ⟨r, hr, e⟩ := isFinite_iff.1 (hk ⟨K - 1, h0⟩)
  rw [e, fin_sub, sub_self, F.round_of_mem F.zero_ok, epsilon_eq]
  show Scalar.lt (fin |0| _) _ = true
  rw [lt_fin, abs_zero]
  exact F.epsilon_pos

/-- **C47** (floats): a spline with finite knots whose first `D+1` and last `D+1` knots are
equal, and whose knot differences do not overflow, evaluates at every float in its knot domain,
whatever the control points are (NaN and infinities included). -/
theorem C47_float_clamped {knots : Arr (Fl F) K} {ps : Arr P C} {b : BSpline (Fl F) P K C D}
    (h : BSpline.new knots ps = .ok b) (hk : FiniteKnots knots) (hf : ClampedFront D knots)
    (hb : ClampedBack D knots)
    (hspan : ∀ i j : Fin K, (knots j).toReal - (knots i).toReal ≤ F.max) :
    ∃ lo hi, b.knotDomain = some (lo, hi) ∧
      ∀ t, Scalar.le lo t = true → Scalar.le t hi = true → ∃ q, b.eval t = .ok q := by
  have hnan := C54_partial h hk hspan
  obtain ⟨h1, h2, h3, hbeq⟩ := (new_generic _ _ _).1 h
  rw [frontB_true hk hf, backB_true hk hb] at hbeq
  have hm := (anyDecrease_finiteKnots hk).1 h3
  have hkn : b.knots = knots := by rw [hbeq]
  have hps : b.control_points = ps := by rw [hbeq]
  have hkind : b.knot_kind = .Clamped := by rw [hbeq]; rfl
  have hd : b.knotDomain = some (knots ⟨D, by omega⟩, knots ⟨C, by omega⟩) := by
    rw [BSpline.knotDomain, hkind]
    simp only [BSpline.knotDomainClamped]
    rw [usub_le (by omega)]
    simp only [Option.bind_eq_bind, Option.bind_some]
    rw [usub_le (by omega), hkn, Arr.get?_lt _ (show D < K by omega)]
    simp only [Option.bind_some]
    rw [Arr.get?_lt _ (show K - 1 - D < K by omega)]
    simp only [Option.bind_some, show K - 1 - D = C by omega]
    rfl
  refine ⟨_, _, hd, fun t ht1 ht2 => ?_⟩
  obtain ⟨x, hx, ex⟩ := isFinite_iff.1 (hk ⟨D, by omega⟩)
  obtain ⟨y, hy, ey⟩ := isFinite_iff.1 (hk ⟨C, by omega⟩)
  rw [ex] at ht1
  rw [ey] at ht2
  obtain ⟨r, hr, rfl⟩ : ∃ r hr, t = fin r hr := by
    cases t with
    | nan => simp at ht1
    | inf s =>
      exfalso
      cases s
      · change decide ((⊤ : EReal) ≤ ((y : ℝ) : EReal)) = true at ht2
        simp at ht2
      · change decide (((x : ℝ) : EReal) ≤ (⊥ : EReal)) = true at ht1
        simp at ht1
    | fin r hr => exact ⟨r, hr, rfl⟩
  rw [le_fin] at ht1 ht2
  have heval : b.eval (fin r hr) = b.deBoorIterative (fin r hr) := by
    unfold BSpline.eval
    rw [hd, ex, ey]
    have hin : (Scalar.lt (fin r hr) (fin x hx) || Scalar.lt (fin y hy) (fin r hr)) = false := by
      rw [Bool.or_eq_false_iff, ← Bool.not_eq_true, ← Bool.not_eq_true, lt_fin, lt_fin]
      exact ⟨not_lt.2 ht1, not_lt.2 ht2⟩
    simp only [Outcome.ofOption_some, Outcome.ok_bind, hin, Bool.false_eq_true, if_false]
  rcases eq_or_lt_of_le ht2 with rfl | ht2
  · have := C49_float_end h hk (show C < K by omega) (show C - 1 < C by omega)
    rw [ey] at this
    exact ⟨_, this⟩
  -- the span
  have hspanS : ∃ k, b.knotSpanStart (fin r hr) = some (some k) ∧ D ≤ k ∧ k < C := by
    have e : C - 1 + 1 = C := by omega
    have kD : knotAt (fun i => (knots i).toReal) D = x := by
      rw [knotAt_lt _ (show D < K by omega), ex, toReal_fin]
    have kC : knotAt (fun i => (knots i).toReal) C = y := by
      rw [knotAt_lt _ (show C < K by omega), ey, toReal_fin]
    obtain ⟨k, hk', h3, h4, _⟩ := spanLoop_spec (knots := fun i => (knots i).toReal) hm r _ D (C - 1)
      le_rfl (by omega) (by rw [kD]; exact ht1) (by rw [e, kC]; exact ht2) (by omega)
    refine ⟨k, ?_, h3, by omega⟩
    rw [BSpline.knotSpanStart, hkind]
    simp only [BSpline.spanClamped]
    rw [usub_le (by omega)]
    simp only [Option.bind_eq_bind, Option.bind_some]
    rw [hkn, Arr.get?_lt _ (show C - 1 + 1 < K by omega)]
    simp only [Option.bind_some, e]
    have hne : (Scalar.eq (fin r hr) (knots ⟨C, by omega⟩) : Bool) = false := by
      rw [ey, ← Bool.not_eq_true, eq_fin]
      exact ht2.ne
    rw [hne]
    simp only [Bool.false_eq_true, if_false]
    rw [spanLoop_finite hk hr _ _ _ le_rfl]
    exact hk'
  obtain ⟨k, hsp, hDk, hkC⟩ := hspanS
  have hnp := deBoorIterative_ne_panic b h2 (by omega) (fin r hr) hsp hDk hkC.le
  have hne := fun e he => deBoorIterative_err b (fin r hr) hsp (e := e) he
  have hn := hnan (fin r hr)
  rw [heval] at hn ⊢
  cases hev : b.deBoorIterative (fin r hr) with
  | ok q => exact ⟨q, rfl⟩
  | err e =>
    exfalso
    by_cases he : e = .EvaluationAlphaIsNaN
    · subst he; exact hn hev
    · exact hne e he hev
  | panic => exact absurd hev hnp

/-- The hypotheses of `C47_float_clamped` hold: degree 1, knots 0 0 1 2 2. -/
theorem clamped_float_witness :
    ∃ (knots : Arr (Fl F) 5) (b : BSpline (Fl F) (PointN (Fl F) 2) 5 3 1),
    BSpline.new knots (fun _ => PointN.new fun _ => nan) = .ok b ∧ FiniteKnots knots ∧
    ClampedFront 1 knots ∧ ClampedBack 1 knots ∧
    (∀ i j : Fin 5, (knots j).toReal - (knots i).toReal ≤ F.max) ∧
    ∀ i, (knots i).toReal = ((![0, 0, 1, 2, 2] : Fin 5 → ℤ) i : ℝ) := by
  let z : Fin 5 → ℤ := ![0, 0, 1, 2, 2]
  have hz : ∀ i, 0 ≤ z i ∧ z i ≤ 2 := by intro i; fin_cases i <;> simp [z]
  have hlit : ∀ i : Fin 5, ∃ hok, (lit ((z i : ℤ) : ℚ) : Fl F) = fin ((z i : ℤ) : ℝ) hok := by
    intro i
    obtain ⟨h0, h2⟩ := hz i
    exact ⟨_, lit_int _ (by rw [abs_of_nonneg h0]; omega)⟩
  have hv : ∀ i : Fin 5, (lit ((z i : ℤ) : ℚ) : Fl F).toReal = z i := by
    intro i
    obtain ⟨_, e⟩ := hlit i
    rw [e, toReal_fin]
  have hf : FiniteKnots (F := F) (fun i : Fin 5 => lit ((z i : ℤ) : ℚ)) := by
    intro i
    obtain ⟨_, e⟩ := hlit i
    show (lit ((z i : ℤ) : ℚ) : Fl F).IsFinite
    rw [e]
    trivial
  obtain ⟨b, hb⟩ := (C43_float (D := 1) hf
    (fun _ : Fin 3 => PointN.new fun _ : Fin 2 => (nan : Fl F))).2 ⟨by norm_num, by norm_num, by
      intro i j hij
      show (lit ((z i : ℤ) : ℚ) : Fl F).toReal ≤ (lit ((z j : ℤ) : ℚ) : Fl F).toReal
      rw [hv, hv]
      have : z i ≤ z j := by
        revert hij
        fin_cases i <;> fin_cases j <;> simp [z]
      exact_mod_cast this⟩
  refine ⟨_, b, hb, hf, ?_, ?_, fun i j => ?_, hv⟩
  · intro i j hi hj
    have : z i = z j := by
      revert hi hj
      fin_cases i <;> fin_cases j <;> simp [z]
    simp only [this]
  · intro i j hi hj
    have : z i = z j := by
      revert hi hj
      fin_cases i <;> fin_cases j <;> simp [z]
    simp only [this]
  · rw [hv, hv]
    obtain ⟨h0, _⟩ := hz i
    obtain ⟨_, h2⟩ := hz j
    have h0 : (0 : ℝ) ≤ z i := by exact_mod_cast h0
    have h2 : ((z j : ℤ) : ℝ) ≤ 2 := by exact_mod_cast h2
    linarith [F.max_ge]

end Stroke
