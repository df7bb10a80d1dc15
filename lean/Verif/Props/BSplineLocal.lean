import Verif.Lemmas.BSplineGeneric
import Verif.Props.FloatBSplineError

/-!
# What a B-spline evaluation depends on, in any arithmetic (C115)

Whether `BSpline::new` and `eval` succeed, return an error or panic is decided by the knots and the
parameter; the control points have no influence, whatever their values and their dimension.  And
`eval` looks at no more than `max D 1` consecutive control points, which are determined by the knots
and the parameter alone.  Both hold for floating point with NaN and infinities included.
-/

set_option linter.unusedSectionVars false

namespace Stroke

/-- Both calls return a value, or both return the same error, or both panic. -/
def SameOutcome {α β : Type} (x : Outcome α) (y : Outcome β) : Prop :=
  ((∃ a, x = .ok a) ↔ ∃ b, y = .ok b) ∧ (∀ e, x = .err e ↔ y = .err e) ∧ (x = .panic ↔ y = .panic)

section
variable {α β γ δ σ τ : Type}

theorem SameOutcome.ok (a : α) (b : β) : SameOutcome (.ok a) (.ok b) :=
  ⟨⟨fun _ => ⟨_, rfl⟩, fun _ => ⟨_, rfl⟩⟩, fun e => ⟨nofun, nofun⟩, ⟨nofun, nofun⟩⟩

theorem SameOutcome.err (e : BSplineError) :
    SameOutcome (.err e : Outcome α) (.err e : Outcome β) := by
  refine ⟨⟨?_, ?_⟩, fun e' => ?_, ⟨nofun, nofun⟩⟩
  · rintro ⟨_, h⟩; cases h
  · rintro ⟨_, h⟩; cases h
  · constructor <;> (intro h; cases h; rfl)

theorem SameOutcome.panic : SameOutcome (.panic : Outcome α) (.panic : Outcome β) := by
  refine ⟨⟨?_, ?_⟩, fun e' => ⟨nofun, nofun⟩, ⟨fun _ => rfl, fun _ => rfl⟩⟩
  · rintro ⟨_, h⟩; cases h
  · rintro ⟨_, h⟩; cases h

theorem SameOutcome.bind {x : Outcome α} {y : Outcome β} {f : α → Outcome γ} {g : β → Outcome δ}
    (h : SameOutcome x y) (hfg : ∀ a b, SameOutcome (f a) (g b)) :
    SameOutcome (x >>= f) (y >>= g) := by
  show SameOutcome (Outcome.bind x f) (Outcome.bind y g)
  cases x with
  | ok a =>
    obtain ⟨b, rfl⟩ := h.1.1 ⟨a, rfl⟩
    exact hfg a b
  | err e =>
    obtain rfl := (h.2.1 e).1 rfl
    exact SameOutcome.err e
  | panic =>
    obtain rfl := h.2.2.1 rfl
    exact SameOutcome.panic

theorem SameOutcome.bind_same (x : Outcome α) {f : α → Outcome γ} {g : α → Outcome δ}
    (hfg : ∀ a, SameOutcome (f a) (g a)) : SameOutcome (x >>= f) (x >>= g) := by
  show SameOutcome (Outcome.bind x f) (Outcome.bind x g)
  cases x with
  | ok a => exact hfg a
  | err e => exact SameOutcome.err e
  | panic => exact SameOutcome.panic

theorem SameOutcome.ofOption {x : Option α} {y : Option β} (h : x.isSome = y.isSome) :
    SameOutcome (.ofOption x) (.ofOption y) := by
  cases x <;> cases y
  · exact SameOutcome.panic
  · cases h
  · cases h
  · exact SameOutcome.ok _ _

theorem SameOutcome.foldlM {f : σ → ℕ → Outcome σ} {g : τ → ℕ → Outcome τ}
    (h : ∀ i s s', SameOutcome (f s i) (g s' i)) :
    ∀ (l : List ℕ) (s : σ) (s' : τ), SameOutcome (l.foldlM f s) (l.foldlM g s')
  | [], s, s' => SameOutcome.ok _ _
  | i :: l, s, s' => by
    rw [List.foldlM_cons, List.foldlM_cons]
    exact (h i s s').bind fun a b => SameOutcome.foldlM h l a b

theorem isSome_foldlM {f : σ → ℕ → Option σ} {g : τ → ℕ → Option τ}
    (h : ∀ i s s', (f s i).isSome = (g s' i).isSome) :
    ∀ (l : List ℕ) (s : σ) (s' : τ), (l.foldlM f s).isSome = (l.foldlM g s').isSome
  | [], s, s' => rfl
  | i :: l, s, s' => by
    rw [List.foldlM_cons, List.foldlM_cons]
    have := h i s s'
    cases e : f s i <;> cases e' : g s' i
    · rfl
    · rw [e, e'] at this; cases this
    · rw [e, e'] at this; cases this
    · exact isSome_foldlM h l _ _

theorem isSome_get {n : ℕ} (a : Arr α n) (b : Arr β n) (i : ℕ) :
    (a.get? i).isSome = (b.get? i).isSome := by
  unfold Arr.get?
  by_cases h : i < n
  · rw [dif_pos h, dif_pos h]; rfl
  · rw [dif_neg h, dif_neg h]; rfl

theorem isSome_set {n : ℕ} (a : Arr α n) (b : Arr β n) (i : ℕ) (v : α) (w : β) :
    (a.set? i v).isSome = (b.set? i w).isSome := by
  unfold Arr.set?
  by_cases h : i < n
  · rw [if_pos h, if_pos h]; rfl
  · rw [if_neg h, if_neg h]; rfl

theorem isSome_obind {x : Option α} {y : Option β} {f : α → Option γ} {g : β → Option δ}
    (h : x.isSome = y.isSome) (hfg : ∀ a b, (f a).isSome = (g b).isSome) :
    (x >>= f).isSome = (y >>= g).isSome := by
  cases x <;> cases y
  · rfl
  · cases h
  · cases h
  · exact hfg _ _

theorem isSome_obind_same (x : Option α) {f : α → Option γ} {g : α → Option δ}
    (hfg : ∀ a, (f a).isSome = (g a).isSome) : (x >>= f).isSome = (x >>= g).isSome := by
  cases x
  · rfl
  · exact hfg _

theorem foldlM_congr_mem {m : Type → Type} [Monad m] {f g : σ → ℕ → m σ} :
    ∀ (l : List ℕ) (s : σ), (∀ i ∈ l, ∀ s, f s i = g s i) → l.foldlM f s = l.foldlM g s
  | [], s, _ => rfl
  | i :: l, s, h => by
    rw [List.foldlM_cons, List.foldlM_cons, h i (by simp)]
    congr 1
    funext a
    exact foldlM_congr_mem l a fun j hj => h j (by simp [hj])

end

section
variable {S : Type} [Scalar S] {P Q : Type} [Point S P] [Point S Q] {K C D : ℕ}

theorem copyPoints_isSome (ps : Arr P C) (qs : Arr Q C) (k : ℕ) (d : Arr P (D + 1))
    (d' : Arr Q (D + 1)) :
    (BSpline.copyPoints ps k d).isSome = (BSpline.copyPoints qs k d').isSome := by
  unfold BSpline.copyPoints forRange
  refine isSome_foldlM (fun i s s' => ?_) _ _ _
  refine isSome_obind_same _ fun a => ?_
  exact isSome_obind (isSome_get _ _ _) fun v w => isSome_set _ _ _ _ _

theorem copyPoints_congr (ps ps' : Arr P C) (k : ℕ) (d : Arr P (D + 1))
    (h : ∀ i : Fin C, k - D ≤ i.val → i.val < k → ps i = ps' i) :
    BSpline.copyPoints ps k d = BSpline.copyPoints ps' k d := by
  unfold BSpline.copyPoints forRange
  refine foldlM_congr_mem _ _ fun j hj s => ?_
  have hj' : j < D := by
    have := (List.mem_range'_1.1 hj).2
    omega
  simp only [usub]
  by_cases h1 : D ≤ j + k
  · rw [if_pos h1]
    simp only [Option.bind_eq_bind, Option.bind_some]
    unfold Arr.get?
    by_cases h2 : j + k - D < C
    · rw [dif_pos h2, dif_pos h2, h ⟨_, h2⟩ (by simp only []; omega) (by simp only []; omega)]
    · rw [dif_neg h2, dif_neg h2]
  · rw [if_neg h1]
    rfl

theorem deBoorRound_same (knots : Arr S K) (t : S) (k r : ℕ) (d : Arr P (D + 1))
    (d' : Arr Q (D + 1)) :
    SameOutcome (BSpline.deBoorRound knots t k r d) (BSpline.deBoorRound knots t k r d') := by
  unfold BSpline.deBoorRound forRangeRev
  refine SameOutcome.foldlM (fun i s s' => ?_) _ _ _
  refine SameOutcome.bind_same _ fun a => ?_
  refine SameOutcome.bind (SameOutcome.ofOption (isSome_obind_same _ fun j => isSome_get _ _ _))
    fun x y => ?_
  exact SameOutcome.bind (SameOutcome.ofOption (isSome_get _ _ _)) fun x' y' =>
    SameOutcome.ofOption (isSome_set _ _ _ _ _)

theorem eval_same (b : BSpline S P K C D) (b' : BSpline S Q K C D) (hk : b.knots = b'.knots)
    (hkk : b.knot_kind = b'.knot_kind) (t : S) : SameOutcome (b.eval t) (b'.eval t) := by
  obtain ⟨kn, kk, ps⟩ := b
  obtain ⟨kn', kk', qs⟩ := b'
  obtain rfl : kn = kn' := hk
  obtain rfl : kk = kk' := hkk
  have hd : (⟨kn, kk, ps⟩ : BSpline S P K C D).knotDomain
      = (⟨kn, kk, qs⟩ : BSpline S Q K C D).knotDomain := by
    cases kk <;> rfl
  have hs : (⟨kn, kk, ps⟩ : BSpline S P K C D).knotSpanStart t
      = (⟨kn, kk, qs⟩ : BSpline S Q K C D).knotSpanStart t := by
    cases kk <;> rfl
  unfold BSpline.eval
  rw [hd]
  cases (⟨kn, kk, qs⟩ : BSpline S Q K C D).knotDomain with
  | none => exact SameOutcome.panic
  | some ab =>
    obtain ⟨lo, hi⟩ := ab
    simp only [Outcome.ofOption_some, Outcome.ok_bind]
    by_cases h : (Scalar.lt t lo || Scalar.lt hi t) = true
    · rw [if_pos h, if_pos h]; exact SameOutcome.err _
    rw [if_neg h, if_neg h]
    unfold BSpline.deBoorIterative
    rw [hs]
    simp only []
    cases kn.get? C with
    | none => exact SameOutcome.panic
    | some kC =>
      simp only [Outcome.ofOption_some, Outcome.ok_bind]
      by_cases h' : Scalar.eq t kC = true
      · rw [if_pos h', if_pos h']
        apply SameOutcome.ofOption
        cases usub C 1 with
        | none => rfl
        | some j => exact isSome_get _ _ j
      rw [if_neg h', if_neg h']
      cases (⟨kn, kk, qs⟩ : BSpline S Q K C D).knotSpanStart t with
      | none => exact SameOutcome.panic
      | some o => cases o with
        | none => exact SameOutcome.err _
        | some k =>
          simp only [Outcome.ofOption_some, Outcome.ok_bind]
          refine SameOutcome.bind (SameOutcome.ofOption (copyPoints_isSome ps qs _ _ _))
            fun d d' => ?_
          refine SameOutcome.bind ?_ fun d d' => SameOutcome.ofOption (isSome_get _ _ _)
          unfold forRange
          exact SameOutcome.foldlM (fun r s s' => deBoorRound_same kn t k r s s') _ _ _

/-- **C115**: whether construction and evaluation succeed, fail (and with which error) or panic does
not depend on the control points, not even on their type. -/
theorem C115_outcome (knots : Arr S K) (ps : Arr P C) (qs : Arr Q C) :
    SameOutcome (BSpline.new knots ps : Outcome (BSpline S P K C D))
      (BSpline.new knots qs : Outcome (BSpline S Q K C D)) ∧
    ∀ (b : BSpline S P K C D) (b' : BSpline S Q K C D),
      BSpline.new knots ps = .ok b → BSpline.new knots qs = .ok b' →
      ∀ t, SameOutcome (b.eval t) (b'.eval t) := by
  constructor
  · unfold BSpline.new
    by_cases h1 : C ≤ D
    · rw [if_pos h1, if_pos h1]; exact SameOutcome.err _
    by_cases h2 : K < C + 1 + D
    · rw [if_neg h1, if_pos h2, if_neg h1, if_pos h2]; exact SameOutcome.err _
    by_cases h3 : K > C + 1 + D
    · rw [if_neg h1, if_neg h2, if_pos h3, if_neg h1, if_neg h2, if_pos h3]
      exact SameOutcome.err _
    by_cases h4 : anyDecrease knots.toList = true
    · rw [if_neg h1, if_neg h2, if_neg h3, if_pos h4, if_neg h1, if_neg h2, if_neg h3, if_pos h4]
      exact SameOutcome.err _
    rw [if_neg h1, if_neg h2, if_neg h3, if_neg h4, if_neg h1, if_neg h2, if_neg h3, if_neg h4]
    exact SameOutcome.bind_same _ fun a => SameOutcome.bind_same _ fun b => SameOutcome.ok _ _
  · intro b b' h h' t
    obtain ⟨_, _, _, rfl⟩ := (new_generic _ _ _).1 h
    obtain ⟨_, _, _, rfl⟩ := (new_generic _ _ _).1 h'
    exact eval_same (P := P) (Q := Q) ⟨_, _, ps⟩ ⟨_, _, qs⟩ rfl rfl t

/-- **C115**: for given knots and parameter there is a window of `max D 1` consecutive control
points such that evaluation depends on no others. -/
theorem C115_local (knots : Arr S K) (t : S) (C D : ℕ) (P : Type) [Point S P] :
    ∃ lo : ℕ, ∀ (ps ps' : Arr P C) (b b' : BSpline S P K C D),
      BSpline.new knots ps = .ok b → BSpline.new knots ps' = .ok b' →
      (∀ i : Fin C, lo ≤ i.val → i.val < lo + max D 1 → ps i = ps' i) → b.eval t = b'.eval t := by
  classical
  -- the spline itself depends on the knots only, up to the control points
  by_cases hex : ∃ (ps₀ : Arr P C) (b₀ : BSpline S P K C D), BSpline.new knots ps₀ = .ok b₀
  swap
  · exact ⟨0, fun ps _ b _ h => absurd ⟨ps, b, h⟩ hex⟩
  obtain ⟨ps₀, b₀, h₀⟩ := hex
  obtain ⟨hDC, hK, hdec, rfl⟩ := (new_generic _ _ _).1 h₀
  set kk := kindB (frontB D knots (knots ⟨0, by omega⟩)) (backB D knots (knots ⟨K - 1, by omega⟩))
    with hkk
  have hspan : ∀ ps : Arr P C, (⟨knots, kk, ps⟩ : BSpline S P K C D).knotSpanStart t
      = (⟨knots, kk, ps₀⟩ : BSpline S P K C D).knotSpanStart t := by
    intro ps; cases kk <;> rfl
  have hdom : ∀ ps : Arr P C, (⟨knots, kk, ps⟩ : BSpline S P K C D).knotDomain
      = (⟨knots, kk, ps₀⟩ : BSpline S P K C D).knotDomain := by
    intro ps; cases kk <;> rfl
  refine ⟨if Scalar.eq t (knots ⟨C, by omega⟩) = true then C - 1 else
    match (⟨knots, kk, ps₀⟩ : BSpline S P K C D).knotSpanStart t with
    | some (some k) => k - D
    | _ => 0, ?_⟩
  intro ps ps' b b' h h' hps
  obtain ⟨_, _, _, rfl⟩ := (new_generic _ _ _).1 h
  obtain ⟨_, _, _, rfl⟩ := (new_generic _ _ _).1 h'
  rw [← hkk]
  unfold BSpline.eval
  rw [hdom ps, hdom ps']
  congr 1
  funext ab
  obtain ⟨x, y⟩ := ab
  simp only []
  congr 1
  unfold BSpline.deBoorIterative
  rw [hspan ps, hspan ps']
  simp only []
  rw [Arr.get?_lt _ (show C < K by omega)]
  simp only [Outcome.ofOption_some, Outcome.ok_bind]
  by_cases ht : Scalar.eq t (knots ⟨C, by omega⟩) = true
  · rw [if_pos ht] at hps
    rw [if_pos ht, if_pos ht, usub_le (show 1 ≤ C by omega)]
    simp only [Option.bind_eq_bind, Option.bind_some]
    rw [Arr.get?_lt _ (show C - 1 < C by omega), Arr.get?_lt _ (show C - 1 < C by omega),
      hps ⟨C - 1, by omega⟩ le_rfl (by simp only []; omega)]
  · rw [if_neg ht] at hps
    rw [if_neg ht, if_neg ht]
    cases hs : (⟨knots, kk, ps₀⟩ : BSpline S P K C D).knotSpanStart t with
    | none => rfl
    | some o => cases o with
      | none => rfl
      | some k =>
        rw [hs] at hps
        simp only [Outcome.ofOption_some, Outcome.ok_bind]
        rw [copyPoints_congr ps ps' k _ fun i h1 h2 => hps i h1 (by simp only []; omega)]

end

namespace Fl
variable {F : FloatFormat} {K C D : ℕ}

/-- Where the span has been found, only the control points before it are used (see `C115_float`). -/
theorem eval_eq_of_span {P : Type} [Point (Fl F) P] {knots : Arr (Fl F) K} {ps ps' : Arr P C}
    {b b' : BSpline (Fl F) P K C D} (h : BSpline.new knots ps = .ok b)
    (h' : BSpline.new knots ps' = .ok b') {t : Fl F} {k : ℕ}
    (hps : ∀ i : Fin C, k - D ≤ i.val → i.val < k → ps i = ps' i)
    (e1 : b.eval t = b.deBoorIterative t) (e2 : b.knotSpanStart t = some (some k)) {hCK : C < K}
    (e3 : Scalar.eq t (b.knots ⟨C, hCK⟩) = false) (e1' : b'.eval t = b'.deBoorIterative t)
    (e2' : b'.knotSpanStart t = some (some k))
    (e3' : Scalar.eq t (b'.knots ⟨C, hCK⟩) = false) : b.eval t = b'.eval t := by
  rw [e1, e1']
  unfold BSpline.deBoorIterative
  rw [e2, e2', Arr.get?_lt _ hCK, Arr.get?_lt _ hCK]
  simp only [Outcome.ofOption_some, Outcome.ok_bind, e3, e3', Bool.false_eq_true, if_false]
  obtain ⟨_, _, _, rfl⟩ := (new_generic _ _ _).1 h
  obtain ⟨_, _, _, rfl⟩ := (new_generic _ _ _).1 h'
  simp only []
  rw [copyPoints_congr ps ps' k _ hps]

/-- **C115** in floating point, splines clamped on both ends: for `t` between the knots `k` and
`k + 1`, evaluation uses the `D` control points `k - D, ..., k - 1` only.  All others may be
anything, NaN included; in particular control point `k`, which the curve should depend on, has no
influence (compare C48). -/
theorem C115_float {P : Type} [Point (Fl F) P] {knots : Arr (Fl F) K} {ps ps' : Arr P C}
    {b b' : BSpline (Fl F) P K C D} (h : BSpline.new knots ps = .ok b)
    (h' : BSpline.new knots ps' = .ok b') (hk : FiniteKnots knots) (hf : ClampedFront D knots)
    (hb : ClampedBack D knots) {t : Fl F} (ht : t.IsFinite) {k : ℕ} (hDk : D ≤ k) (hkC : k < C)
    (ht1 : knotAt (fun i => (knots i).toReal) k ≤ t.toReal)
    (ht2 : t.toReal < knotAt (fun i => (knots i).toReal) (k + 1))
    (hps : ∀ i : Fin C, k - D ≤ i.val → i.val < k → ps i = ps' i) : b.eval t = b'.eval t := by
  obtain ⟨x, hx, rfl⟩ := isFinite_iff.1 ht
  rw [toReal_fin] at ht1 ht2
  obtain ⟨e1, e2, hCK, e3⟩ := eval_float_span h hk hf hb hx hDk hkC ht1 ht2
  obtain ⟨e1', e2', hCK', e3'⟩ := eval_float_span h' hk hf hb hx hDk hkC ht1 ht2
  exact eval_eq_of_span h h' hps e1 e2 e3 e1' e2' e3'

/-- The hypotheses are met: degree 1, knots 0 0 1 2 2, `t = 1`, in the span of `k = 2`; only control
point 1 is used, and the other two are NaN in the second spline. -/
example (p : PointN (Fl F) 2) : ∃ (knots : Arr (Fl F) 5)
    (b b' : BSpline (Fl F) (PointN (Fl F) 2) 5 3 1),
    BSpline.new knots ![⟨fun _ => lit 1⟩, p, ⟨fun _ => lit 2⟩] = .ok b ∧
    BSpline.new knots ![⟨fun _ => nan⟩, p, ⟨fun _ => nan⟩] = .ok b' ∧
    b.eval (lit 1 : Fl F) = b'.eval (lit 1 : Fl F) := by
  obtain ⟨knots, b₀, h₀, hk, hf, hb, -, hv⟩ := clamped_float_witness (F := F)
  obtain ⟨b, h⟩ := (C115_outcome (D := 1) knots (fun _ : Fin 3 => PointN.new fun _ => (nan : Fl F))
    (![⟨fun _ => lit 1⟩, p, ⟨fun _ => lit 2⟩] : Arr (PointN (Fl F) 2) 3)).1.1.1 ⟨b₀, h₀⟩
  obtain ⟨b', h'⟩ := (C115_outcome (D := 1) knots
    (fun _ : Fin 3 => PointN.new fun _ => (nan : Fl F))
    (![⟨fun _ => nan⟩, p, ⟨fun _ => nan⟩] : Arr (PointN (Fl F) 2) 3)).1.1.1 ⟨b₀, h₀⟩
  refine ⟨knots, b, b', h, h', C115_float h h' hk hf hb (by rw [lit_one]; trivial) (k := 2)
    (by norm_num) (by norm_num) ?_ ?_ ?_⟩
  · rw [lit_one, toReal_fin]
    have := hv 2
    simp only [knotAt]
    rw [dif_pos (by norm_num)]
    exact le_of_eq (this.trans (by simp))
  · rw [lit_one, toReal_fin]
    have := hv 3
    simp only [knotAt]
    rw [dif_pos (by norm_num)]
    refine lt_of_lt_of_eq ?_ this.symm
    simp
  · intro i h1 h2
    fin_cases i
    · exact absurd h1 (by norm_num)
    · rfl
    · exact absurd h2 (by norm_num)

end Fl

end Stroke
