import Verif.Model.Usize
import Verif.Props.Witnesses

/-!
# Debug and release builds give the same results (C125)
-/

namespace Stroke

/-- What builds with and without overflow checks have in common: results that fit are right, and a
subtraction below zero panics or gives a number near 2^w. -/
structure UsizeArith.Sound (A : UsizeArith) (w : ℕ) : Prop where
  add : ∀ {a b : ℕ}, a + b < 2 ^ w → A.add a b = some (a + b)
  sub : ∀ {a b : ℕ}, b ≤ a → a < 2 ^ w → A.sub a b = some (a - b)
  low : ∀ {a b : ℕ}, a < b → b < 2 ^ w → A.sub a b = none ∨ ∃ r, A.sub a b = some r ∧ 2 ^ w ≤ r + b

theorem UsizeArith.checked_sound (w : ℕ) : (UsizeArith.checked w).Sound w where
  add h := if_pos h
  sub h _ := if_pos h
  low h _ := .inl (if_neg (by omega))

theorem UsizeArith.wrapping_sound (w : ℕ) : (UsizeArith.wrapping w).Sound w where
  add h := congrArg some (Nat.mod_eq_of_lt h)
  sub {a b} h h' := by
    show some ((a + 2 ^ w - b) % 2 ^ w) = _
    rw [show a + 2 ^ w - b = (a - b) + 2 ^ w by omega, Nat.add_mod_right,
      Nat.mod_eq_of_lt (by omega)]
  low {a b} h h' := .inr ⟨a + 2 ^ w - b, by
    show some ((a + 2 ^ w - b) % 2 ^ w) = _
    rw [Nat.mod_eq_of_lt (by omega)], by omega⟩

variable {A : UsizeArith} {w : ℕ}

/-- A difference that is used as an index. -/
theorem UsizeArith.Sound.index (hA : A.Sound w) {α : Type} {n : ℕ} (arr : Arr α n) {a b : ℕ}
    (ha : a < 2 ^ w) (hb : b < 2 ^ w) (hn : n + b ≤ 2 ^ w) :
    (A.sub a b >>= fun i => arr.get? i) = (usub a b >>= fun i => arr.get? i) := by
  rcases le_or_gt b a with h | h
  · rw [hA.sub h ha, show usub a b = some (a - b) from if_pos h]
  · rw [show usub a b = none from if_neg (by omega)]
    rcases hA.low h hb with e | ⟨r, e, hr⟩
    · rw [e]
    · rw [e]
      exact dif_neg (by omega)

/-- Loops with the same body have the same result. -/
theorem forRange_congr {m : Type → Type} [Monad m] {σ : Type} {lo hi : ℕ} {s : σ}
    {f g : ℕ → σ → m σ} (h : ∀ i, lo ≤ i → i < hi → ∀ s, f i s = g i s) :
    forRange lo hi s f = forRange lo hi s g := by
  unfold forRange
  have key : ∀ (l : List ℕ), (∀ i ∈ l, ∀ s, f i s = g i s) → ∀ s : σ,
      l.foldlM (fun s i => f i s) s = l.foldlM (fun s i => g i s) s := by
    intro l
    induction l with
    | nil => intro _ s; rfl
    | cons i l ih =>
      intro hl s
      rw [List.foldlM_cons, List.foldlM_cons, hl i (by simp)]
      congr 1
      funext s'
      exact ih (fun j hj => hl j (by simp [hj])) s'
  refine key _ (fun i hi => ?_) s
  rw [List.mem_range'_1] at hi
  exact h i hi.1 (by omega)

theorem forRangeRev_congr {m : Type → Type} [Monad m] {σ : Type} {lo hi : ℕ} {s : σ}
    {f g : ℕ → σ → m σ} (h : ∀ i, lo ≤ i → i < hi → ∀ s, f i s = g i s) :
    forRangeRev lo hi s f = forRangeRev lo hi s g := by
  unfold forRangeRev
  have key : ∀ (l : List ℕ), (∀ i ∈ l, ∀ s, f i s = g i s) → ∀ s : σ,
      l.foldlM (fun s i => f i s) s = l.foldlM (fun s i => g i s) s := by
    intro l
    induction l with
    | nil => intro _ s; rfl
    | cons i l ih =>
      intro hl s
      rw [List.foldlM_cons, List.foldlM_cons, hl i (by simp)]
      congr 1
      funext s'
      exact ih (fun j hj => hl j (by simp [hj])) s'
  refine key _ (fun i hi => ?_) s
  rw [List.mem_reverse, List.mem_range'_1] at hi
  exact h i hi.1 (by omega)

theorem forBreak_congr {m : Type → Type} [Monad m] {σ : Type} {f g : ℕ → σ → m (Bool × σ)} :
    ∀ (l : List ℕ), (∀ i ∈ l, ∀ s, f i s = g i s) → ∀ s : σ, forBreak f l s = forBreak g l s
  | [], _, _ => rfl
  | i :: l, hl, s => by
    unfold forBreak
    rw [hl i (by simp)]
    congr 1
    funext x
    obtain ⟨brk, s'⟩ := x
    dsimp only
    rw [forBreak_congr l (fun j hj => hl j (by simp [hj])) s']

section Bezier

variable {S P : Type} [Scalar S] [Point S P] {N : ℕ}

theorem bezier_evalU (hA : A.Sound w) (hN : N < 2 ^ w) (b : Bezier P N) (t : S) :
    b.evalU A t = b.eval t := by
  unfold Bezier.evalU Bezier.eval
  congr 1
  refine forRange_congr fun i _ hi s => ?_
  rw [hA.sub (by omega) hN, show usub N i = some (N - i) from if_pos (by omega)]
  simp only [Option.bind_eq_bind, Option.bind_some]
  refine forRange_congr fun j _ hj s => ?_
  rw [hA.add (by omega)]
  rfl

theorem bezier_splitU (hA : A.Sound w) (hN : N + 1 < 2 ^ w) (b : Bezier P N) (t : S) :
    b.splitU A t = b.split t := by
  unfold Bezier.splitU Bezier.split
  congr 1
  refine forRange_congr fun i hi0 hi s => ?_
  obtain ⟨left, right, c⟩ := s
  dsimp only
  rw [hA.sub (a := N) (by omega) (by omega), show usub N i = some (N - i) from if_pos (by omega),
    hA.sub (a := i) hi0 (by omega), show usub i 1 = some (i - 1) from if_pos hi0]
  simp only [Option.bind_eq_bind, Option.bind_some]
  have key : ∀ c : Arr P N, (forRange 0 (N - i) c fun j c =>
        (c.get? j).bind fun a => (A.add j 1).bind fun x => (c.get? x).bind fun b =>
          c.set? j (a * (-t + lit 1) + b * t))
      = forRange 0 (N - i) c fun j c =>
        (c.get? j).bind fun a => (c.get? (j + 1)).bind fun b =>
          c.set? j (a * (-t + lit 1) + b * t) := by
    intro c
    refine forRange_congr fun j _ hj s => ?_
    rw [hA.add (by omega)]
    rfl
  rw [key]

theorem bezier_derivativeU (hA : A.Sound w) (hN : N + 1 < 2 ^ w) (b : Bezier P N) :
    b.derivativeU A = (b.derivative : Option (Bezier P (N - 1))) := by
  unfold Bezier.derivativeU Bezier.derivative
  dsimp only
  congr 1
  refine forBreak_congr (m := Option) _ (fun i hi s => ?_) _
  rw [List.mem_range] at hi
  rw [hA.add (by omega)]
  simp only [Option.bind_eq_bind, Option.bind_some]
  rcases lt_or_ge N 2 with h | h
  · rw [show b.control_points.get? (i + 1) = none from dif_neg (by omega)]
    rfl
  · rw [hA.sub h (by omega), show usub N 2 = some (N - 2) from if_pos h]

end Bezier

namespace BSpline

variable {S P : Type} [Scalar S] [Point S P] {K C D : ℕ}

omit [Point S P] in
theorem newU_eq (hA : A.Sound w) (hC : 2 * C + 1 < 2 ^ w) (hK : K < 2 ^ w) (knots : Arr S K)
    (ps : Arr P C) : newU (D := D) A knots ps = new knots ps := by
  unfold newU new
  by_cases h : C ≤ D
  · rw [if_pos h, if_pos h]
  rw [if_neg h, if_neg h]
  have e : (A.add C 1 >>= fun x => A.add x D) = some (C + 1 + D) := by
    rw [hA.add (by omega)]
    exact hA.add (by omega)
  rw [e]
  show (if K < C + 1 + D then _ else _) = _
  by_cases h1 : K < C + 1 + D
  · rw [if_pos h1, if_pos h1]
  rw [if_neg h1, if_neg h1]
  show (if K > C + 1 + D then _ else _) = _
  by_cases h2 : K > C + 1 + D
  · rw [if_pos h2, if_pos h2]
  rw [if_neg h2, if_neg h2]
  by_cases h3 : anyDecrease knots.toList
  · rw [if_pos h3, if_pos h3]
  rw [if_neg h3, if_neg h3]
  have e1 : (A.sub K D >>= fun x => A.sub x 1) = some (K - D - 1) := by
    rw [hA.sub (by omega) hK]
    exact hA.sub (by omega) (by omega)
  rw [e1, hA.index knots hK (by omega) (by omega)]
  rfl

omit [Scalar S] [Point S P] in
theorem knotDomainU_eq (hA : A.Sound w) (hK : 2 * K ≤ 2 ^ w) (hD : D < K)
    (b : BSpline S P K C D) : knotDomainU A b = b.knotDomain := by
  have e1 : A.sub K 1 = some (K - 1) := hA.sub (by omega) (by omega)
  have e2 : A.sub (K - 1) D = some (K - 1 - D) := hA.sub (by omega) (by omega)
  have e3 : usub K 1 = some (K - 1) := if_pos (by omega)
  have e4 : usub (K - 1) D = some (K - 1 - D) := if_pos (by omega)
  unfold knotDomainU knotDomain knotDomainClamped knotDomainClampedStart knotDomainClampedEnd
    knotDomainUnclamped
  generalize b.knot_kind = kind
  cases kind <;> simp only [e1, e2, e3, e4, Option.bind_eq_bind, Option.bind_some]

/-- The outcome of a loop, as the model with natural numbers has it. -/
def toRun {α : Type} : Option α → Run α
  | some a => .done a
  | none => .panic

theorem get?_lt {α : Type} {n i : ℕ} {arr : Arr α n} {x : α} (h : arr.get? i = some x) : i < n := by
  by_contra hi
  rw [show arr.get? i = none from dif_neg hi] at h
  exact absurd h (by simp)

theorem spanUnclampedLoopU_eq (hA : A.Sound w) (hK : 2 * K + 2 ≤ 2 ^ w) (knots : Arr S K) (t : S) :
    ∀ (fuel first count : ℕ), count ≤ fuel → first + count ≤ K →
      spanUnclampedLoopU A knots t fuel first count = toRun (spanUnclampedLoop knots t first count) ∧
      ∀ k, spanUnclampedLoop knots t first count = some (some k) → k < K := by
  intro fuel
  induction fuel with
  | zero =>
    intro first count h _
    obtain rfl : count = 0 := by omega
    unfold spanUnclampedLoop
    exact ⟨rfl, fun k h => by simp at h⟩
  | succ fuel ih =>
    intro first count h hle
    unfold spanUnclampedLoop spanUnclampedLoopU
    by_cases hc : 0 < count
    swap
    · rw [if_neg hc, if_neg hc]
      exact ⟨rfl, fun k h => by simp at h⟩
    rw [if_pos hc, if_pos hc]
    dsimp only
    rw [hA.add (a := first) (b := count / 2) (by omega)]
    dsimp only [Run.ofOption]
    rw [hA.add (a := first + count / 2) (b := 1) (by omega)]
    simp only [Option.bind_eq_bind, Option.bind_some]
    rcases h1 : knots.get? (first + count / 2 + 1) with _ | k1
    · exact ⟨rfl, fun k h => by simp at h⟩
    have hlt := get?_lt h1
    rw [hA.sub (a := K) (b := 2) (by omega) (by omega),
      show usub K 2 = some (K - 2) from if_pos (by omega)]
    simp only [Option.bind_some]
    by_cases l1 : Scalar.lt t k1 = true
    · rw [if_pos l1, if_pos (by simp [l1])]
      refine ⟨rfl, fun k h => ?_⟩
      obtain rfl : first + count / 2 = k := by simpa using h
      omega
    rw [if_neg l1]
    by_cases l2 : (first + count / 2 + 1 == K - 2 && Scalar.eq t k1) = true
    · rw [if_pos l2, if_pos (by simp only [Bool.or_eq_true]; exact .inr l2)]
      refine ⟨rfl, fun k h => ?_⟩
      obtain rfl : first + count / 2 = k := by simpa using h
      omega
    rw [if_neg l2, if_neg (by simp only [Bool.or_eq_true]; tauto)]
    rcases h0 : knots.get? (first + count / 2) with _ | k0
    · exact ⟨rfl, fun k h => by simp at h⟩
    simp only [Option.bind_some]
    by_cases l3 : Scalar.le k0 t = true
    · rw [if_pos l3, if_pos l3]
      exact ih _ _ (by omega) (by omega)
    · rw [if_neg l3, if_neg l3]
      exact ih _ _ (by omega) (by omega)

theorem spanLoopU_eq (hA : A.Sound w) (hK : 2 * K + 2 ≤ 2 ^ w) (knots : Arr S K) (t : S) :
    ∀ (fuel low high : ℕ), high + 1 ≤ fuel + low → high < K →
      (low = 0 → ∀ x, knots.get? 0 = some x → ¬ Scalar.lt t x = true) →
      spanLoopU A knots t fuel low high = toRun (spanClampedLoop knots t low high) ∧
      ∀ k, spanClampedLoop knots t low high = some (some k) → k < K := by
  intro fuel
  induction fuel with
  | zero =>
    intro low high h _ _
    unfold spanClampedLoop spanLoopU
    rw [if_neg (by omega), if_neg (by omega)]
    exact ⟨rfl, fun k h => by simp at h⟩
  | succ fuel ih =>
    intro low high h hh h0
    unfold spanClampedLoop spanLoopU
    by_cases hc : low ≤ high
    swap
    · rw [if_neg hc, if_neg hc]
      exact ⟨rfl, fun k h => by simp at h⟩
    rw [if_pos hc, if_pos hc]
    rw [hA.add (a := low) (b := high) (by omega)]
    dsimp only [Run.ofOption]
    have hm : low ≤ (low + high) / 2 ∧ (low + high) / 2 ≤ high := by omega
    generalize (low + high) / 2 = mid at hm ⊢
    simp only [Option.bind_eq_bind]
    rcases e0 : knots.get? mid with _ | k0
    · exact ⟨rfl, fun k h => by simp at h⟩
    simp only [Option.bind_some]
    rw [hA.add (a := mid) (b := 1) (by omega)]
    simp only [Option.bind_some]
    have tail : ∀ inside : Bool,
        (if inside = true then Run.done (some mid)
          else if Scalar.lt t k0 = true then
            Run.ofOption (A.sub mid 1) fun high => spanLoopU A knots t fuel low high
          else spanLoopU A knots t fuel (mid + 1) high)
        = toRun (if inside = true then some (some mid)
          else if Scalar.lt t k0 = true then
            if mid = 0 then none else spanClampedLoop knots t low (mid - 1)
          else spanClampedLoop knots t (mid + 1) high) ∧
        ∀ k, (if inside = true then some (some mid)
          else if Scalar.lt t k0 = true then
            if mid = 0 then none else spanClampedLoop knots t low (mid - 1)
          else spanClampedLoop knots t (mid + 1) high) = some (some k) → k < K := by
      intro inside
      by_cases l1 : inside = true
      · rw [if_pos l1, if_pos l1]
        refine ⟨rfl, fun k h => ?_⟩
        obtain rfl : mid = k := by simpa using h
        omega
      rw [if_neg l1, if_neg l1]
      by_cases l2 : Scalar.lt t k0 = true
      · have hm0 : mid ≠ 0 := by
          rintro rfl
          exact h0 (by omega) k0 e0 l2
        rw [if_pos l2, if_pos l2, if_neg hm0, hA.sub (by omega) (by omega)]
        exact ih _ _ (by omega) (by omega) h0
      · rw [if_neg l2, if_neg l2]
        exact ih _ _ (by omega) hh (by omega)
    by_cases l : Scalar.le k0 t = true
    · rw [if_pos l, if_pos l]
      rcases knots.get? (mid + 1) with _ | k1
      · exact ⟨rfl, fun k h => by simp at h⟩
      · exact tail (Scalar.lt t k1)
    · rw [if_neg l, if_neg l]
      exact tail false

omit [Point S P] in
theorem knotSpanStartU_eq (hA : A.Sound w) (hK : 2 * K + 2 ≤ 2 ^ w) (hDC : D < C)
    (hCK : C + D < K) {fuel : ℕ} (hf : K ≤ fuel) (b : BSpline S P K C D) (t : S)
    (hdom : ∀ lo hi, b.knotDomain = some (lo, hi) → ¬ Scalar.lt t lo = true) :
    knotSpanStartU A fuel b t = toRun (b.knotSpanStart t) ∧
    ∀ k, b.knotSpanStart t = some (some k) → k < K := by
  have c1 : A.sub C 1 = some (C - 1) := hA.sub (by omega) (by omega)
  have c2 : usub C 1 = some (C - 1) := if_pos (by omega)
  have c3 : A.add (C - 1) 1 = some (C - 1 + 1) := hA.add (by omega)
  have k1 : A.sub K 1 = some (K - 1) := hA.sub (by omega) (by omega)
  have k2 : usub K 1 = some (K - 1) := if_pos (by omega)
  have k3 : A.sub (K - 1) 1 = some (K - 1 - 1) := hA.sub (by omega) (by omega)
  have k4 : usub (K - 1) 1 = some (K - 1 - 1) := if_pos (by omega)
  have gC : b.knots.get? (C - 1 + 1) = some (b.knots ⟨C - 1 + 1, by omega⟩) := dif_pos _
  have gK : b.knots.get? (K - 1) = some (b.knots ⟨K - 1, by omega⟩) := dif_pos _
  have gD : b.knots.get? D = some (b.knots ⟨D, by omega⟩) := dif_pos _
  have g0 : b.knots.get? 0 = some (b.knots ⟨0, by omega⟩) := dif_pos _
  unfold knotSpanStartU knotSpanStart
  rcases hk : b.knot_kind with _ | _ | _ | _ <;> dsimp only
  · exact spanUnclampedLoopU_eq hA hK b.knots t fuel 0 K hf (by omega)
  · unfold spanClampedStart
    simp only [c1, c2, k1, k2, k3, k4, gK, gD, Run.ofOption, Option.bind_eq_bind, Option.bind_some]
    by_cases l1 : Scalar.eq t (b.knots ⟨K - 1, by omega⟩) = true
    · rw [if_pos l1, if_pos l1]
      refine ⟨rfl, fun k h => ?_⟩
      obtain rfl : C - 1 = k := by simpa using h
      omega
    rw [if_neg l1, if_neg l1]
    by_cases l2 : (Scalar.lt t (b.knots ⟨D, by omega⟩)
        || Scalar.lt (b.knots ⟨K - 1, by omega⟩) t) = true
    · rw [if_pos l2, if_pos l2]
      exact ⟨rfl, fun k h => by simp at h⟩
    rw [if_neg l2, if_neg l2, spanClampedStartLoop_eq]
    refine spanLoopU_eq hA hK b.knots t fuel D (K - 1 - 1) (by omega) (by omega) ?_
    rintro rfl x hx
    rw [gD] at hx
    obtain rfl := Option.some.inj hx
    simp only [Bool.or_eq_true, not_or] at l2
    exact l2.1
  · unfold spanClampedEnd
    simp only [c1, c2, c3, gC, g0, Run.ofOption, Option.bind_eq_bind, Option.bind_some]
    by_cases l1 : Scalar.eq t (b.knots ⟨C - 1 + 1, by omega⟩) = true
    · rw [if_pos l1, if_pos l1]
      refine ⟨rfl, fun k h => ?_⟩
      obtain rfl : C - 1 = k := by simpa using h
      omega
    rw [if_neg l1, if_neg l1]
    by_cases l2 : (Scalar.lt t (b.knots ⟨0, by omega⟩)
        || Scalar.lt (b.knots ⟨C - 1 + 1, by omega⟩) t) = true
    · rw [if_pos l2, if_pos l2]
      exact ⟨rfl, fun k h => by simp at h⟩
    rw [if_neg l2, if_neg l2, spanClampedEndLoop_eq]
    refine spanLoopU_eq hA hK b.knots t fuel 0 (C - 1) (by omega) (by omega) ?_
    intro _ x hx
    rw [g0] at hx
    obtain rfl := Option.some.inj hx
    simp only [Bool.or_eq_true, not_or] at l2
    exact l2.1
  · unfold spanClamped
    simp only [c1, c2, c3, gC, Run.ofOption, Option.bind_eq_bind, Option.bind_some]
    by_cases l1 : Scalar.eq t (b.knots ⟨C - 1 + 1, by omega⟩) = true
    · rw [if_pos l1, if_pos l1]
      refine ⟨rfl, fun k h => ?_⟩
      obtain rfl : C - 1 = k := by simpa using h
      omega
    rw [if_neg l1, if_neg l1]
    refine spanLoopU_eq hA hK b.knots t fuel D (C - 1) (by omega) (by omega) ?_
    rintro rfl x hx
    refine hdom x (b.knots ⟨K - 1, by omega⟩) ?_
    unfold knotDomain
    rw [hk]
    dsimp only
    unfold knotDomainClamped
    simp only [hx, k2, show usub (K - 1) 0 = some (K - 1) from if_pos (by omega), gK,
      Option.bind_eq_bind, Option.bind_some]
    rfl

theorem copyPointsU_eq (hA : A.Sound w) {k : ℕ} (hk : D + k < 2 ^ w) (hC : C + D ≤ 2 ^ w)
    (ps : Arr P C) (d : Arr P (D + 1)) : copyPointsU A ps k d = copyPoints ps k d := by
  unfold copyPointsU copyPoints
  refine forRange_congr fun j _ hj s => ?_
  have e := hA.index ps (a := j + k) (b := D) (by omega) (by omega) hC
  rw [hA.add (by omega)]
  have := congrArg (fun x => x >>= fun v => s.set? j v) e
  simpa only [Option.bind_eq_bind, Option.bind_assoc, Option.bind_some] using this

theorem alphaU_eq (hA : A.Sound w) {k r j : ℕ} (hk : D + 1 + k < 2 ^ w) (hK : K + D ≤ 2 ^ w)
    (hr : r ≤ j) (hj : j ≤ D) (knots : Arr S K) (t : S) :
    alphaU (D := D) A knots t k r j = alpha (D := D) knots t k r j := by
  have e := hA.index knots (a := j + k) (b := D) (by omega) (by omega) hK
  have e' := hA.index knots (a := j + 1 + k) (b := r) (by omega) (by omega) (by omega)
  unfold alphaU alpha
  rw [hA.add (a := j) (b := k) (by omega), hA.add (a := j) (b := 1) (by omega)]
  simp only [Option.bind_eq_bind, Option.bind_some] at e e' ⊢
  rw [hA.add (a := j + 1) (b := k) (by omega)]
  simp only [Option.bind_some]
  rw [e, e']

theorem deBoorRoundU_eq (hA : A.Sound w) {k r : ℕ} (hk : D + 1 + k < 2 ^ w) (hK : K + D ≤ 2 ^ w)
    (hr : 1 ≤ r) (knots : Arr S K) (t : S) (d : Arr P (D + 1)) :
    deBoorRoundU A knots t k r d = deBoorRound knots t k r d := by
  unfold deBoorRoundU deBoorRound
  refine forRangeRev_congr fun j hj0 hj s => ?_
  rw [alphaU_eq hA hk hK hj0 (by omega), hA.sub (by omega) (by omega),
    show usub j 1 = some (j - 1) from if_pos (by omega)]

end BSpline

/-! ### The property -/

section
variable {S P : Type} [Scalar S] [Point S P]

/-- **C125**, B-splines: on a target with `w`-bit words and arrays of at most half the address
space, `eval` does the same with and without overflow checks — it ends, and its result is that of
the model with natural numbers — for every kind of knot vector, every parameter (NaN included) and
every kind of arithmetic. Its loops end within as many rounds as there are knots. -/
theorem C125_bspline_eval {K C D w fuel : ℕ} (hK : 2 * K + 2 ≤ 2 ^ w) (hDC : D < C)
    (hCK : C + D < K) (hf : K ≤ fuel) (b : BSpline S P K C D) (t : S) :
    b.evalU (.checked w) fuel t = some (b.eval t) ∧
    b.evalU (.wrapping w) fuel t = some (b.eval t) := by
  have key : ∀ A : UsizeArith, A.Sound w → b.evalU A fuel t = some (b.eval t) := by
    intro A hA
    unfold BSpline.evalU BSpline.eval
    rw [BSpline.knotDomainU_eq hA (by omega) (by omega)]
    rcases hd : b.knotDomain with _ | ⟨lo, hi⟩
    · rfl
    show (if _ then _ else _) = some (if _ then _ else _)
    by_cases l : (Scalar.lt t lo || Scalar.lt hi t) = true
    · rw [if_pos l, if_pos l]
    rw [if_neg l, if_neg l]
    simp only [Bool.or_eq_true, not_or] at l
    obtain ⟨h1, h2⟩ := BSpline.knotSpanStartU_eq hA hK hDC hCK hf b t (by
      intro lo' hi' h
      rw [hd] at h
      obtain ⟨rfl, rfl⟩ := Prod.mk.inj (Option.some.inj h)
      exact l.1)
    unfold BSpline.deBoorIterativeU BSpline.deBoorIterative
    rw [show b.knots.get? C = some (b.knots ⟨C, by omega⟩) from dif_pos _]
    show (if _ then _ else _) = some (if _ then _ else _)
    by_cases l' : Scalar.eq t (b.knots ⟨C, by omega⟩) = true
    · rw [if_pos l', if_pos l', hA.sub (by omega) (by omega),
        show usub C 1 = some (C - 1) from if_pos (by omega)]
    rw [if_neg l', if_neg l', h1]
    rcases hk : b.knotSpanStart t with _ | _ | k
    · rfl
    · rfl
    · have hkK := h2 k hk
      show some _ = some _
      congr 1
      dsimp only
      rw [BSpline.copyPointsU_eq hA (by omega) (by omega)]
      show _ = (Outcome.ofOption _ >>= _)
      congr 1
      funext d
      congr 1
      exact forRange_congr fun r hr _ s => BSpline.deBoorRoundU_eq hA (by omega) (by omega) hr _ _ _
  exact ⟨key _ (UsizeArith.checked_sound w), key _ (UsizeArith.wrapping_sound w)⟩

omit [Point S P] in
/-- **C125**, the constructor of B-splines. -/
theorem C125_bspline_new {K C D w : ℕ} (hC : 2 * C + 1 < 2 ^ w) (hK : K < 2 ^ w)
    (knots : Arr S K) (ps : Arr P C) :
    BSpline.newU (D := D) (.checked w) knots ps = BSpline.new knots ps ∧
    BSpline.newU (D := D) (.wrapping w) knots ps = BSpline.new knots ps :=
  ⟨BSpline.newU_eq (UsizeArith.checked_sound w) hC hK knots ps,
    BSpline.newU_eq (UsizeArith.wrapping_sound w) hC hK knots ps⟩

/-- **C125**, the derivative of a B-spline. -/
theorem C125_bspline_derivative {K C D w : ℕ} (hK : C + D + 1 < 2 ^ w) (b : BSpline S P K C D) :
    b.derivativeU (.checked w) = b.derivative ∧ b.derivativeU (.wrapping w) = b.derivative := by
  have key : ∀ A : UsizeArith, A.Sound w → b.derivativeU A = b.derivative := by
    intro A hA
    unfold BSpline.derivativeU BSpline.derivative
    dsimp only
    congr 1
    refine forBreak_congr (m := Option) _ (fun i hi s => ?_) _
    rw [List.mem_range] at hi
    rw [hA.add (a := i) (b := 1) (by omega), hA.add (a := i) (b := D) (by omega)]
    simp only [Option.bind_eq_bind, Option.bind_some]
    rw [hA.add (a := i + D) (b := 1) (by omega)]
    simp only [Option.bind_some]
    rcases lt_or_ge C 2 with h | h
    · rw [show b.control_points.get? (i + 1) = none from dif_neg (by omega)]
      rfl
    · rw [hA.sub h (by omega), show usub C 2 = some (C - 2) from if_pos h]
  exact ⟨key _ (UsizeArith.checked_sound w), key _ (UsizeArith.wrapping_sound w)⟩

/-- **C125**, generic Bezier curves. -/
theorem C125_bezier {N w : ℕ} (hN : N + 1 < 2 ^ w) (b : Bezier P N) (t : S) :
    (b.evalU (.checked w) t = b.eval t ∧ b.evalU (.wrapping w) t = b.eval t) ∧
    (b.splitU (.checked w) t = b.split t ∧ b.splitU (.wrapping w) t = b.split t) ∧
    (b.derivativeU (.checked w) = b.derivative ∧ b.derivativeU (.wrapping w) = b.derivative) :=
  have h1 := UsizeArith.checked_sound w
  have h2 := UsizeArith.wrapping_sound w
  ⟨⟨bezier_evalU h1 (by omega) b t, bezier_evalU h2 (by omega) b t⟩,
    ⟨bezier_splitU h1 hN b t, bezier_splitU h2 hN b t⟩,
    ⟨bezier_derivativeU h1 hN b, bezier_derivativeU h2 hN b⟩⟩

/-- **C125** for the splines that programs can have: those made by `new`, and their derivatives. -/
theorem C125_bspline {K C D w fuel : ℕ} (hK : 2 * K + 2 ≤ 2 ^ w) (hf : K ≤ fuel)
    {knots : Arr S K} {ps : Arr P C} {b : BSpline S P K C D} (h : BSpline.new knots ps = .ok b)
    (t : S) :
    (b.evalU (.checked w) fuel t = some (b.eval t) ∧
      b.evalU (.wrapping w) fuel t = some (b.eval t)) ∧
    ∀ b', b.derivative = some b' → 1 ≤ D →
      b'.evalU (.checked w) fuel t = some (b'.eval t) ∧
      b'.evalU (.wrapping w) fuel t = some (b'.eval t) := by
  unfold BSpline.new at h
  have hDC : D < C := by
    by_contra hc
    rw [if_pos (by omega)] at h
    exact absurd h (by simp)
  rw [if_neg (by omega)] at h
  have hCK : C + D < K := by
    by_contra hc
    rw [if_pos (by omega)] at h
    exact absurd h (by simp)
  exact ⟨C125_bspline_eval hK hDC hCK hf b t,
    fun b' _ hD => C125_bspline_eval hK (by omega) (by omega) hf b' t⟩

end

/-- The two builds differ in the result of `0 - 1`. -/
example : (UsizeArith.checked 64).sub 0 1 = none ∧
    (UsizeArith.wrapping 64).sub 0 1 = some 18446744073709551615 := ⟨by rfl, by rfl⟩

/-- `C125_bspline` for a spline that can be evaluated for t = 5/2 and not for t = 1/2, on a 32-bit
target: the two builds return the same point for the former and panic for the latter. -/
example (ps : Arr (PointN ℝ 2) 3) : ∃ b : BSpline ℝ (PointN ℝ 2) 6 3 2,
    BSpline.new ![0, 1, 2, 3, 3, 3] ps = .ok b ∧
    (∃ q, b.evalU (.checked 32) 6 (5 / 2 : ℝ) = some (.ok q) ∧
      b.evalU (.wrapping 32) 6 (5 / 2 : ℝ) = some (.ok q)) ∧
    b.evalU (.checked 32) 6 (1 / 2 : ℝ) = some .panic ∧
    b.evalU (.wrapping 32) 6 (1 / 2 : ℝ) = some .panic := by
  obtain ⟨b, hb⟩ := (C43_accepts (D := 2) _ ps).2 valid_012333
  have ex : ∀ t : ℝ, 0 ≤ t → t ≤ 3 → _ := fun t h0 h3 =>
    C47_back_exact hb not_front_012333 back_012333 (t := t) (by simpa [knotAt] using h0)
      (by simpa [knotAt] using h3)
  refine ⟨b, hb, ?_, ?_⟩
  · obtain ⟨q, hq⟩ := (ex (5 / 2) (by norm_num) (by norm_num)).1.2 (by norm_num [knotAt])
    obtain ⟨⟨h1, h2⟩, _⟩ := C125_bspline (w := 32) (by norm_num) le_rfl hb (5 / 2 : ℝ)
    rw [hq] at h1 h2
    exact ⟨q, h1, h2⟩
  · have hn : ¬ ∃ q, b.eval (1 / 2 : ℝ) = .ok q := fun h => by
      have := (ex (1 / 2) (by norm_num) (by norm_num)).1.1 h
      norm_num [knotAt] at this
    have hp := (ex (1 / 2) (by norm_num) (by norm_num)).2.resolve_left hn
    obtain ⟨⟨h1, h2⟩, _⟩ := C125_bspline (w := 32) (by norm_num) le_rfl hb (1 / 2 : ℝ)
    rw [hp] at h1 h2
    exact ⟨h1, h2⟩

/-- `C125_bezier` on a 16-bit target. -/
example (t : ℝ) : ∃ q : PointN ℝ 2,
    (⟨![pt2 (-1) 0, pt2 0 1, pt2 1 0]⟩ : Bezier (PointN ℝ 2) 3).evalU (.wrapping 16) t = some q ∧
    (⟨![pt2 (-1) 0, pt2 0 1, pt2 1 0]⟩ : Bezier (PointN ℝ 2) 3).evalU (.checked 16) t = some q := by
  obtain ⟨⟨h1, h2⟩, _⟩ := C125_bezier (w := 16) (by norm_num)
    (⟨![pt2 (-1) 0, pt2 0 1, pt2 1 0]⟩ : Bezier (PointN ℝ 2) 3) t
  obtain ⟨q, hq, _⟩ := C30_eval
    (⟨![pt2 (-1) 0, pt2 0 1, pt2 1 0]⟩ : Bezier (PointN ℝ 2) 3) (by norm_num) t
  exact ⟨q, h2.trans hq, h1.trans hq⟩

end Stroke
