import Verif.Props.BSpline

set_option linter.unusedSectionVars false

/-!
# B-splines with shifted or scaled knots (C79)
-/

namespace Stroke

variable {P : Type} [Point ℝ P] {K C D : ℕ}

/-! ### Specification -/

/-- The knots after the change of parameter `u ↦ r u + c`. -/
def reparametrised (r c : ℝ) (knots : Fin K → ℝ) : Fin K → ℝ := fun i => r * knots i + c

/-- Scaling by `r` does not move `x` across the machine epsilon, in either direction. -/
def KeepsSize (r x : ℝ) : Prop := x < eps ↔ r * x < eps

/-! ### Searches -/

theorem get_reparam (r c : ℝ) (knots : Arr ℝ K) (i : ℕ) :
    Arr.get? (reparametrised r c knots) i = (knots.get? i).map (fun u => r * u + c) := by
  unfold Arr.get? reparametrised
  split <;> rfl

section
variable {r c : ℝ} (hr : 0 < r)
include hr

theorem reparam_lt (x y : ℝ) : Scalar.lt (r * x + c) (r * y + c) = Scalar.lt x y := by
  simp only [lt_real, add_lt_add_iff_right, mul_lt_mul_iff_right₀ hr]

theorem reparam_le (x y : ℝ) : Scalar.le (r * x + c) (r * y + c) = Scalar.le x y := by
  simp only [le_real, add_le_add_iff_right, mul_le_mul_iff_right₀ hr]

theorem reparam_eq (x y : ℝ) : Scalar.eq (r * x + c) (r * y + c) = Scalar.eq x y := by
  simp only [eq_real, add_left_inj, mul_eq_mul_left_iff, hr.ne', or_false]

theorem spanUnclampedLoop_reparam (knots : Arr ℝ K) (t : ℝ) (count : ℕ) : ∀ first,
    BSpline.spanUnclampedLoop (reparametrised r c knots) (r * t + c) first count
      = BSpline.spanUnclampedLoop knots t first count := by
  induction count using Nat.strong_induction_on with
  | _ count ih =>
    intro first
    rw [BSpline.spanUnclampedLoop, BSpline.spanUnclampedLoop]
    by_cases hc : 0 < count
    · rw [if_pos hc, if_pos hc]
      simp only [get_reparam]
      cases knots.get? (first + count / 2 + 1) with
      | none => rfl
      | some k1 =>
        simp only [Option.map_some, Option.bind_eq_bind, Option.bind_some, reparam_lt hr,
          reparam_eq hr]
        cases usub K 2 with
        | none => rfl
        | some k2 =>
          simp only [Option.bind_some]
          split
          · rfl
          · cases knots.get? (first + count / 2) with
            | none => rfl
            | some k0 =>
              simp only [Option.map_some, Option.bind_some, reparam_le hr]
              rw [ih _ (by omega), ih _ (by omega)]
    · rw [if_neg hc, if_neg hc]

theorem spanClampedLoop_reparam (knots : Arr ℝ K) (t : ℝ) (n : ℕ) : ∀ low high,
    high + 1 - low ≤ n →
    BSpline.spanClampedLoop (reparametrised r c knots) (r * t + c) low high
      = BSpline.spanClampedLoop knots t low high := by
  induction n with
  | zero =>
    intro low high h
    rw [BSpline.spanClampedLoop, BSpline.spanClampedLoop, if_neg (by omega), if_neg (by omega)]
  | succ n ih =>
    intro low high h
    rw [BSpline.spanClampedLoop, BSpline.spanClampedLoop]
    by_cases hc : low ≤ high
    · rw [if_pos hc, if_pos hc]
      simp only [get_reparam]
      cases knots.get? ((low + high) / 2) with
      | none => rfl
      | some k0 =>
        simp only [Option.map_some, Option.bind_eq_bind, Option.bind_some, reparam_lt hr,
          reparam_le hr]
        have e1 : (low + high) / 2 ≠ 0 →
            BSpline.spanClampedLoop (reparametrised r c knots) (r * t + c) low ((low + high) / 2 - 1)
            = BSpline.spanClampedLoop knots t low ((low + high) / 2 - 1) :=
          fun h0 => ih _ _ (by omega)
        have e2 : BSpline.spanClampedLoop (reparametrised r c knots) (r * t + c)
              ((low + high) / 2 + 1) high
            = BSpline.spanClampedLoop knots t ((low + high) / 2 + 1) high := ih _ _ (by omega)
        have e3 : (if (low + high) / 2 = 0 then none else
              BSpline.spanClampedLoop (reparametrised r c knots) (r * t + c) low
                ((low + high) / 2 - 1))
            = (if (low + high) / 2 = 0 then none else
              BSpline.spanClampedLoop knots t low ((low + high) / 2 - 1)) := by
          split
          · rfl
          · rename_i h0; exact e1 h0
        simp only [e2, e3]
        cases knots.get? ((low + high) / 2 + 1) with
        | none => rfl
        | some k1 => simp only [Option.map_some, Option.bind_some, reparam_lt hr]
    · rw [if_neg hc, if_neg hc]

theorem knotSpanStart_reparam (b : BSpline ℝ P K C D) (t : ℝ) :
    BSpline.knotSpanStart (D := D) { b with knots := reparametrised r c b.knots } (r * t + c)
      = b.knotSpanStart t := by
  unfold BSpline.knotSpanStart
  cases b.knot_kind with
  | Unclamped => exact spanUnclampedLoop_reparam hr _ _ _ _
  | Clamped =>
    simp only [BSpline.spanClamped, get_reparam]
    cases usub C 1 with
    | none => rfl
    | some n =>
      simp only [Option.bind_eq_bind, Option.bind_some]
      cases b.knots.get? (n + 1) with
      | none => rfl
      | some k =>
        simp only [Option.map_some, Option.bind_some, reparam_eq hr]
        rw [spanClampedLoop_reparam hr _ _ _ _ _ le_rfl]
  | ClampedStart =>
    simp only [BSpline.spanClampedStart, get_reparam]
    cases usub C 1 with
    | none => rfl
    | some n =>
      simp only [Option.bind_eq_bind, Option.bind_some]
      cases usub K 1 with
      | none => rfl
      | some m =>
        simp only [Option.bind_some]
        cases b.knots.get? m with
        | none => rfl
        | some km =>
          simp only [Option.map_some, Option.bind_some, reparam_eq hr]
          cases b.knots.get? D with
          | none => rfl
          | some kp =>
            simp only [Option.map_some, Option.bind_some, reparam_lt hr,
              spanClampedStartLoop_eq]
            cases usub m 1 with
            | none => rfl
            | some high =>
              simp only [Option.bind_some]
              rw [spanClampedLoop_reparam hr _ _ _ _ _ le_rfl]
  | ClampedEnd =>
    simp only [BSpline.spanClampedEnd, get_reparam]
    cases usub C 1 with
    | none => rfl
    | some n =>
      simp only [Option.bind_eq_bind, Option.bind_some]
      cases b.knots.get? (n + 1) with
      | none => rfl
      | some kn =>
        simp only [Option.map_some, Option.bind_some, reparam_eq hr]
        cases b.knots.get? 0 with
        | none => rfl
        | some k0 =>
          simp only [Option.map_some, Option.bind_some, reparam_lt hr, spanClampedEndLoop_eq]
          rw [spanClampedLoop_reparam hr _ _ _ _ _ le_rfl]

theorem knotDomain_reparam (b : BSpline ℝ P K C D) :
    BSpline.knotDomain (D := D) { b with knots := reparametrised r c b.knots }
      = b.knotDomain.map fun d => (r * d.1 + c, r * d.2 + c) := by
  have h2 : ∀ (x y : Option ℕ),
      (do let i ← x; let lo ← Arr.get? (reparametrised r c b.knots) i
          let j ← y; let hi ← Arr.get? (reparametrised r c b.knots) j
          pure (lo, hi) : Option (ℝ × ℝ))
      = (do let i ← x; let lo ← b.knots.get? i
            let j ← y; let hi ← b.knots.get? j
            pure (lo, hi) : Option (ℝ × ℝ)).map fun d => (r * d.1 + c, r * d.2 + c) := by
    intro x y
    simp only [get_reparam]
    cases x with
    | none => rfl
    | some i =>
      simp only [Option.bind_eq_bind, Option.bind_some]
      cases b.knots.get? i with
      | none => rfl
      | some lo =>
        simp only [Option.map_some, Option.bind_some]
        cases y with
        | none => rfl
        | some j =>
          simp only [Option.bind_some]
          cases b.knots.get? j with
          | none => rfl
          | some hi => rfl
  unfold BSpline.knotDomain
  cases b.knot_kind with
  | Unclamped => exact h2 (some D) (some C)
  | Clamped => 
    have := h2 (some D) (do usub (← usub K 1) D)
    simp only [Option.bind_eq_bind, Option.bind_some, Option.bind_assoc] at this
    simpa only [BSpline.knotDomainClamped, Option.bind_eq_bind, Option.bind_some,
      Option.bind_assoc] using this
  | ClampedStart =>
    have := h2 (some D) (usub K 1)
    simpa only [BSpline.knotDomainClampedStart, Option.bind_eq_bind, Option.bind_some,
      Option.bind_assoc] using this
  | ClampedEnd =>
    have := h2 (some 0) (do usub (← usub K 1) D)
    simp only [Option.bind_eq_bind, Option.bind_some, Option.bind_assoc] at this
    simpa only [BSpline.knotDomainClampedEnd, Option.bind_eq_bind, Option.bind_some,
      Option.bind_assoc] using this

/-! ### Evaluation -/

theorem alpha_reparam (knots : Arr ℝ K) (t : ℝ)
    (ht : ∀ i, KeepsSize r (t - knots i)) (hk : ∀ i j, KeepsSize r |knots i - knots j|)
    (k q j : ℕ) :
    BSpline.alpha (D := D) (reparametrised r c knots) (r * t + c) k q j
      = BSpline.alpha (D := D) knots t k q j := by
  have hmem : ∀ (o : Option ℕ) (x : ℝ), o.bind knots.get? = some x → ∃ i, knots i = x := by
    intro o x h
    cases o with
    | none => simp at h
    | some i =>
      simp only [Option.bind_some, Arr.get?] at h
      split at h
      · exact ⟨_, Option.some.inj h⟩
      · simp at h
  unfold BSpline.alpha
  have e : ∀ o : Option ℕ, (o >>= fun i => Arr.get? (reparametrised r c knots) i)
      = (o.bind knots.get?).map (fun u => r * u + c) := by
    intro o
    cases o with
    | none => rfl
    | some i => exact get_reparam r c knots i
  have e' : ∀ o : Option ℕ, (o >>= fun i => knots.get? i) = o.bind knots.get? := fun _ => rfl
  simp only [e, e']
  cases hl : (usub (j + k) D).bind knots.get? with
  | none => rfl
  | some kl =>
    simp only [Option.map_some, Outcome.ofOption_some, Outcome.ok_bind]
    cases hrr : (usub (j + 1 + k) q).bind knots.get? with
    | none => rfl
    | some kr =>
      obtain ⟨il, rfl⟩ := hmem _ _ hl
      obtain ⟨ir, rfl⟩ := hmem _ _ hrr
      simp only [Option.map_some, Outcome.ofOption_some, Outcome.ok_bind]
      have e1 : r * t + c - (r * knots il + c) = r * (t - knots il) := by ring
      have e2 : r * knots ir + c - (r * knots il + c) = r * (knots ir - knots il) := by ring
      rw [e1, e2, mul_div_mul_left _ _ hr.ne']
      have h1 : Scalar.lt (r * (t - knots il)) (Scalar.epsilon : ℝ)
          = Scalar.lt (t - knots il) Scalar.epsilon := by
        simp only [lt_real, epsilon_real]
        exact decide_eq_decide.2 (ht il).symm
      have h2 : Scalar.lt (Scalar.abs (r * (knots ir - knots il))) (Scalar.epsilon : ℝ)
          = Scalar.lt (Scalar.abs (knots ir - knots il)) Scalar.epsilon := by
        simp only [lt_real, epsilon_real, abs_real, abs_mul, abs_of_pos hr]
        exact decide_eq_decide.2 (hk ir il).symm
      rw [h1, h2]

theorem eval_reparam (b : BSpline ℝ P K C D) (t : ℝ)
    (ht : ∀ i, KeepsSize r (t - b.knots i)) (hk : ∀ i j, KeepsSize r |b.knots i - b.knots j|) :
    BSpline.eval (D := D) { b with knots := reparametrised r c b.knots } (r * t + c) = b.eval t := by
  have hround : ∀ k q (d : Arr P (D + 1)),
      BSpline.deBoorRound (reparametrised r c b.knots) (r * t + c) k q d
        = BSpline.deBoorRound b.knots t k q d := by
    intro k q d
    unfold BSpline.deBoorRound
    simp only [alpha_reparam hr b.knots t ht hk]
  unfold BSpline.eval
  rw [knotDomain_reparam hr]
  cases b.knotDomain with
  | none => rfl
  | some d =>
    obtain ⟨lo, hi⟩ := d
    simp only [Option.map_some, Outcome.ofOption_some, Outcome.ok_bind, reparam_lt hr]
    unfold BSpline.deBoorIterative
    rw [knotSpanStart_reparam hr]
    simp only [get_reparam, hround]
    cases b.knots.get? C with
    | none => rfl
    | some kC =>
      simp only [Option.map_some, Outcome.ofOption_some, Outcome.ok_bind, reparam_eq hr]

end

/-! ### The constructor -/

theorem kindOf_reparam {r c : ℝ} (hr : 0 < r) (knots : Arr ℝ K)
    (hk : ∀ i j, KeepsSize r |knots i - knots j|) (v : ValidSpline C D knots) :
    kindOf D (reparametrised r c knots) = kindOf D knots := by
  have hK : ∀ i, i < K → knotAt (reparametrised r c knots) i = r * knotAt knots i + c := by
    intro i hi
    simp [knotAt, hi, reparametrised]
  have hd : ∀ (i : Fin K) (j : ℕ), j < K →
      (|reparametrised r c knots i - knotAt (reparametrised r c knots) j| < eps
        ↔ |knots i - knotAt knots j| < eps) := by
    intro i j hj
    rw [hK j hj]
    have : knotAt knots j = knots ⟨j, hj⟩ := by simp [knotAt, hj]
    rw [this, show reparametrised r c knots i - (r * knots ⟨j, hj⟩ + c)
      = r * (knots i - knots ⟨j, hj⟩) by unfold reparametrised; ring, abs_mul, abs_of_pos hr]
    exact (hk i ⟨j, hj⟩).symm
  have hf : FrontClamped D (reparametrised r c knots) ↔ FrontClamped D knots := by
    have h0 : 0 < K := by have := v.2.1; omega
    exact forall_congr' fun i => imp_congr_right fun _ => hd i 0 h0
  have hb : BackClamped D (reparametrised r c knots) ↔ BackClamped D knots := by
    have h0 : K - 1 < K := by have := v.2.1; omega
    exact forall_congr' fun i => imp_congr_right fun _ => hd i (K - 1) h0
  unfold kindOf
  by_cases h1 : FrontClamped D knots <;> by_cases h2 : BackClamped D knots <;>
    simp [hf, hb, h1, h2]

theorem valid_reparam {r c : ℝ} (hr : 0 < r) {knots : Arr ℝ K} (v : ValidSpline C D knots) :
    ValidSpline C D (reparametrised r c knots) :=
  ⟨v.1, v.2.1, fun i j hij => by
    unfold reparametrised
    have := mul_le_mul_of_nonneg_left (v.2.2 i j hij) hr.le
    linarith⟩

theorem keepsSize_one (x : ℝ) : KeepsSize 1 x := by unfold KeepsSize; rw [one_mul]

/-- **C79** (the part that holds): replacing the parameter `u` by `r u + c` in the knots and in
the argument changes nothing about the curve: the constructor accepts the same knot vectors, the
domain is moved along, and `eval` gives the same point, the same error or panics as before.
Missing for the full claim: knots or parameters whose distance crosses the machine epsilon when
scaled (`C79_false`). -/
theorem C79_partial {r c : ℝ} (hr : 0 < r) {knots : Arr ℝ K} {ps : Arr P C}
    {b : BSpline ℝ P K C D} (h : BSpline.new knots ps = .ok b)
    (hk : ∀ i j, KeepsSize r |knots i - knots j|) :
    ∃ b' : BSpline ℝ P K C D, BSpline.new (reparametrised r c knots) ps = .ok b' ∧
      b'.knotDomain = b.knotDomain.map (fun d => (r * d.1 + c, r * d.2 + c)) ∧
      ∀ t, (∀ i, KeepsSize r (t - knots i)) → b'.eval (r * t + c) = b.eval t := by
  obtain ⟨v, rfl⟩ := (new_ok_iff _ _ _).1 h
  refine ⟨_, (new_ok_iff _ _ _).2 ⟨valid_reparam hr v, rfl⟩, ?_, fun t ht => ?_⟩
  · rw [kindOf_reparam hr knots hk v]
    exact knotDomain_reparam hr (⟨knots, kindOf D knots, ps⟩ : BSpline ℝ P K C D)
  · rw [kindOf_reparam hr knots hk v]
    exact eval_reparam hr (⟨knots, kindOf D knots, ps⟩ : BSpline ℝ P K C D) t ht hk

/-- **C79** holds for every shift of the parameter. -/
theorem C79_shift (c : ℝ) {knots : Arr ℝ K} {ps : Arr P C}
    {b : BSpline ℝ P K C D} (h : BSpline.new knots ps = .ok b) :
    ∃ b' : BSpline ℝ P K C D, BSpline.new (fun i => knots i + c) ps = .ok b' ∧
      b'.knotDomain = b.knotDomain.map (fun d => (d.1 + c, d.2 + c)) ∧
      ∀ t, b'.eval (t + c) = b.eval t := by
  obtain ⟨b', h1, h2, h3⟩ := C79_partial (c := c) one_pos h (fun _ _ => keepsSize_one _)
  simp only [one_mul] at h2 h3
  have e : reparametrised 1 c knots = fun i => knots i + c := by
    funext i; simp [reparametrised]
  rw [e] at h1
  exact ⟨b', h1, h2, fun t => h3 t fun _ => keepsSize_one _⟩

/-- **C79** is false for scaling: with the knots 0 0 1 1 the point at 1/2 is half-way to the
origin, with all knots and the parameter divided by 2^53 it is the first control point. -/
theorem C79_false : ∃ b b' : BSpline ℝ (PointN ℝ 1) 4 2 1,
    BSpline.new ![0, 0, 1, 1] ![p1 10, p1 0] = .ok b ∧
    BSpline.new (reparametrised (1 / 2 ^ 53) 0 ![0, 0, 1, 1]) ![p1 10, p1 0] = .ok b' ∧
    b.eval (1 / 2 : ℝ) = .ok (p1 5) ∧ b'.eval (1 / 2 ^ 53 * (1 / 2) + 0 : ℝ) = .ok (p1 10) := by
  obtain ⟨b, hb, he⟩ := eval_0011 10 0
  have v : ValidSpline 2 1 (reparametrised (1 / 2 ^ 53) 0 ![0, 0, 1, 1]) :=
    valid_reparam (by positivity) valid_0011
  obtain ⟨b', hb'⟩ := (C43_accepts (D := 1) _ ![p1 10, p1 0]).2 v
  refine ⟨b, b', hb, hb', by rw [he]; norm_num, ?_⟩
  have hf : FrontClamped 1 (reparametrised (1 / 2 ^ 53) 0 ![0, 0, 1, 1]) := by
    intro i _
    unfold eps
    fin_cases i <;> norm_num [reparametrised, knotAt, abs_lt]
  rw [eval_in_span hb' (Or.inl hf) (k := 1) le_rfl (by norm_num)
    (by norm_num [knotAt, reparametrised]) (by norm_num [knotAt, reparametrised])]
  congr 1
  have ha : alphaVal (knotAt (reparametrised (1 / 2 ^ 53) 0 ![0, 0, 1, 1])) 1
      (1 / 2 ^ 53 * (1 / 2) + 0) 1 1 = 0 := by
    unfold alphaVal
    rw [if_pos]
    unfold eps
    norm_num [knotAt, reparametrised]
  apply point_ext; intro i
  rcases Nat.eq_zero_or_pos i with rfl | hi
  · simp [deBoorValue, db, spanPoints, extend]
    simpa using ha
  · rw [coord_out _ (show ¬ i < 1 by omega), coord_out _ (show ¬ i < 1 by omega)]

/-- Test: doubling the knots 0 0 1 1 meets the conditions of `C79_partial` at 1/2. -/
example : (∀ i j : Fin 4, KeepsSize 2 |(![0, 0, 1, 1] : Fin 4 → ℝ) i - ![0, 0, 1, 1] j|) ∧
    ∀ i : Fin 4, KeepsSize 2 (1 / 2 - (![0, 0, 1, 1] : Fin 4 → ℝ) i) := by
  unfold KeepsSize eps
  constructor
  · intro i j; fin_cases i <;> fin_cases j <;> norm_num
  · intro i; fin_cases i <;> norm_num

end Stroke
