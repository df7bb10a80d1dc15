import Verif.Props.LengthBounds

set_option linter.unusedSectionVars false

/-!
# Bounds on the distance to a curve from splitting (C123)

`distance_to_point` of a curve samples the curve and then looks at other parameters than it should
(C40), so its result may be smaller than the distance.  Here: what a user gets who splits the curve
and takes the smallest distance to an endpoint of a piece.
-/

namespace Stroke

/-! ### Specification -/

/-- `d` is the distance from `x` to the points `f(t)`, `t` in `[0, 1]`: the greatest number that is at
most every one of the distances. -/
def IsCurveDistance {P : Type} [Point ℝ P] (f : ℝ → P) (x : P) (d : ℝ) : Prop :=
  IsGLB {y | ∃ t, 0 ≤ t ∧ t ≤ 1 ∧ y = pdist x (f t)} d

/-- `m` is the smallest distance from `x` to one of the points. -/
def IsNearest {P : Type} [Point ℝ P] (x : P) (ps : List P) (m : ℝ) : Prop :=
  (∃ p ∈ ps, m = pdist x p) ∧ ∀ p ∈ ps, m ≤ pdist x p

/-- `d` is the distance between the curves `f` and `g` over `[0, 1]`. -/
def IsCurvesDistance {P : Type} [Point ℝ P] (f g : ℝ → P) (d : ℝ) : Prop :=
  IsGLB {y | ∃ s t, 0 ≤ s ∧ s ≤ 1 ∧ 0 ≤ t ∧ t ≤ 1 ∧ y = pdist (f s) (g t)} d

/-- `m` is the smallest distance between one of the points and one of the others. -/
def IsNearestPair {P : Type} [Point ℝ P] (ps qs : List P) (m : ℝ) : Prop :=
  (∃ p ∈ ps, ∃ q ∈ qs, m = pdist p q) ∧ ∀ p ∈ ps, ∀ q ∈ qs, m ≤ pdist p q

/-! ### General facts -/

/-- Every piece is part of the curve. -/
theorem CutInto.on_curve {Q X : Type} {split : Q → ℝ → Option (Q × Q)} {eval : Q → ℝ → X}
    (he : ∀ q t l r, 0 ≤ t → t ≤ 1 → split q t = some (l, r) → ∀ s,
      eval l s = eval q (t * s) ∧ eval r s = eval q (t + (1 - t) * s))
    {q : Q} {ps : List Q} (h : CutInto split q ps) :
    ∀ p ∈ ps, ∀ s, 0 ≤ s → s ≤ 1 → ∃ u, 0 ≤ u ∧ u ≤ 1 ∧ eval p s = eval q u := by
  induction h with
  | whole =>
    intro p hp s s0 s1
    rw [List.mem_singleton] at hp
    exact ⟨s, s0, s1, by rw [hp]⟩
  | @cut xs ys a l r t _ t0 t1 hs ih =>
    intro p hp s s0 s1
    simp only [List.mem_append, List.mem_cons] at hp
    have ha := ih a (by simp)
    rcases hp with hp | rfl | rfl | hp
    · exact ih p (by simp [hp]) s s0 s1
    · rw [(he a t _ r t0 t1 hs s).1]
      exact ha _ (by positivity) (by nlinarith)
    · rw [(he a t l _ t0 t1 hs s).2]
      exact ha _ (by nlinarith) (by nlinarith)
    · exact ih p (by simp [hp]) s s0 s1

/-- The pieces cover the curve. -/
theorem CutInto.cover {Q X : Type} {split : Q → ℝ → Option (Q × Q)} {eval : Q → ℝ → X}
    (he : ∀ q t l r, 0 ≤ t → t ≤ 1 → split q t = some (l, r) → ∀ s,
      eval l s = eval q (t * s) ∧ eval r s = eval q (t + (1 - t) * s))
    {q : Q} {ps : List Q} (h : CutInto split q ps) (u : ℝ) (u0 : 0 ≤ u) (u1 : u ≤ 1) :
    ∃ p ∈ ps, ∃ s, 0 ≤ s ∧ s ≤ 1 ∧ eval p s = eval q u := by
  induction h with
  | whole => exact ⟨q, by simp, u, u0, u1, rfl⟩
  | @cut xs ys a l r t _ t0 t1 hs ih =>
    obtain ⟨p, hp, s, s0, s1, e⟩ := ih
    simp only [List.mem_append, List.mem_cons] at hp
    rcases hp with hp | rfl | hp
    · exact ⟨p, by simp [hp], s, s0, s1, e⟩
    · rcases le_or_gt s t with hst | hst
      · rcases t0.eq_or_lt with rfl | tp
        · refine ⟨l, by simp, 0, le_rfl, zero_le_one, ?_⟩
          rw [(he _ 0 l r le_rfl t1 hs 0).1, zero_mul, ← e, le_antisymm hst s0]
        · refine ⟨l, by simp, s / t, by positivity, (div_le_one tp).2 hst, ?_⟩
          rw [(he _ t l r t0 t1 hs _).1, mul_div_cancel₀ _ tp.ne', e]
      · have tp : 0 < 1 - t := by linarith
        refine ⟨r, by simp, (s - t) / (1 - t), div_nonneg (by linarith) tp.le,
          (div_le_one tp).2 (by linarith), ?_⟩
        rw [(he _ t l r t0 t1 hs _).2, mul_div_cancel₀ _ tp.ne', add_sub_cancel, e]
    · exact ⟨p, by simp [hp], s, s0, s1, e⟩

theorem pieces_size_le {Q : Type} {halve : Q → Q × Q} {size : Q → ℝ → Prop}
    (hs : ∀ q A, size q A → size (halve q).1 (A / 2) ∧ size (halve q).2 (A / 2)) (n : ℕ) :
    ∀ q A, size q A → ∀ p ∈ pieces halve n q, size p (A / 2 ^ n) := by
  induction n with
  | zero =>
    intro q A h p hp
    rw [pieces, List.mem_singleton] at hp
    simpa [hp] using h
  | succ n ih =>
    intro q A h p hp
    rw [pieces, List.mem_append] at hp
    rw [pow_succ', ← div_div]
    rcases hp with hp | hp
    · exact ih _ _ (hs q A h).1 p hp
    · exact ih _ _ (hs q A h).2 p hp

section Curves
variable {P : Type} [Point ℝ P] [LawfulPoint P] {N : ℕ}

/-- The endpoints of the pieces of a curve. -/
def endpointsOf (hN : 1 ≤ N) (ps : List (Bezier P N)) : List P :=
  ps.flatMap fun p => [p.control_points ⟨0, hN⟩, p.control_points ⟨N - 1, by omega⟩]

/-- Every point of a curve is within half the length of the control polygon of an endpoint. -/
theorem near_endpoint (b : Bezier P N) (hN : 1 ≤ N) (t : ℝ) (t0 : 0 ≤ t) (t1 : t ≤ 1) (q : P)
    (hq : b.eval t = some q) :
    pdist (b.control_points ⟨0, hN⟩) q ≤ controlPolygonLength b.control_points / 2 ∨
    pdist q (b.control_points ⟨N - 1, by omega⟩) ≤ controlPolygonLength b.control_points / 2 := by
  obtain ⟨l, r, hs, h⟩ := C33_split b t
  have ha := bezier_arc_add b l r hN t t0 t1 hs
  have hl := bezier_chord_le_arc l hN
  have hr := bezier_chord_le_arc r hN
  have hb := C71_arc_length b hN
  obtain ⟨l0, l1⟩ := C31_endpoints l hN
  obtain ⟨r0, r1⟩ := C31_endpoints r hN
  obtain ⟨b0, b1⟩ := C31_endpoints b hN
  rw [(h hN 0).1, mul_zero, b0, Option.some.injEq] at l0
  rw [(h hN 1).1, mul_one, hq, Option.some.injEq] at l1
  rw [(h hN 0).2, mul_zero, add_zero, hq, Option.some.injEq] at r0
  rw [(h hN 1).2, mul_one, add_sub_cancel, b1, Option.some.injEq] at r1
  rw [← l0, ← l1] at hl
  rw [← r0, ← r1] at hr
  by_contra hcon
  rw [not_or, not_le, not_le] at hcon
  linarith [hcon.1, hcon.2]

theorem bezier_cut_eval (hN : 1 ≤ N) (q : Bezier P N) (t : ℝ) (l r : Bezier P N) (_ : 0 ≤ t)
    (_ : t ≤ 1) (hs : q.split t = some (l, r)) (s : ℝ) :
    l.eval s = q.eval (t * s) ∧ r.eval s = q.eval (t + (1 - t) * s) := by
  obtain ⟨l', r', hs', hq⟩ := C33_split q t
  rw [hs, Option.some.injEq, Prod.mk.injEq] at hs'
  obtain ⟨rfl, rfl⟩ := hs'
  exact hq hN s

theorem mem_endpointsOf (hN : 1 ≤ N) (ps : List (Bezier P N)) (e : P) :
    e ∈ endpointsOf hN ps ↔ ∃ p ∈ ps, e = p.control_points ⟨0, hN⟩ ∨
      e = p.control_points ⟨N - 1, by omega⟩ := by
  simp [endpointsOf]

/-- Every point of the curve is near an endpoint of a piece. -/
theorem cut_near (b : Bezier P N) (hN : 1 ≤ N) (f : ℝ → P) (hf : ∀ t, b.eval t = some (f t))
    (ps : List (Bezier P N)) (h : CutInto (fun q t => q.split t) b ps) (M : ℝ)
    (hM : ∀ p ∈ ps, controlPolygonLength p.control_points ≤ M) (t : ℝ) (t0 : 0 ≤ t) (t1 : t ≤ 1) :
    ∃ e ∈ endpointsOf hN ps, pdist (f t) e ≤ M / 2 := by
  obtain ⟨p, hp, s, s0, s1, e⟩ := h.cover (eval := fun (q : Bezier P N) (t : ℝ) => q.eval t)
    (bezier_cut_eval hN) t t0 t1
  rw [hf] at e
  have hpM := hM p hp
  rcases near_endpoint p hN s s0 s1 (f t) e with h1 | h1
  · refine ⟨_, (mem_endpointsOf hN ps _).2 ⟨p, hp, Or.inl rfl⟩, ?_⟩
    rw [pdist_comm]
    linarith
  · exact ⟨_, (mem_endpointsOf hN ps _).2 ⟨p, hp, Or.inr rfl⟩, by linarith⟩

/-- Every endpoint of a piece is on the curve. -/
theorem cut_endpoint_on (b : Bezier P N) (hN : 1 ≤ N) (f : ℝ → P) (hf : ∀ t, b.eval t = some (f t))
    (ps : List (Bezier P N)) (h : CutInto (fun q t => q.split t) b ps) (e : P)
    (he : e ∈ endpointsOf hN ps) : ∃ u, 0 ≤ u ∧ u ≤ 1 ∧ e = f u := by
  obtain ⟨p, hp, hpe⟩ := (mem_endpointsOf hN ps e).1 he
  have key : ∃ s : ℝ, 0 ≤ s ∧ s ≤ 1 ∧ p.eval s = some e := by
    obtain ⟨p0, p1⟩ := C31_endpoints p hN
    rcases hpe with rfl | rfl
    · exact ⟨0, le_rfl, zero_le_one, p0⟩
    · exact ⟨1, zero_le_one, le_rfl, p1⟩
  obtain ⟨s, s0, s1, hs⟩ := key
  obtain ⟨u, u0, u1, hu⟩ := h.on_curve (eval := fun (q : Bezier P N) (t : ℝ) => q.eval t)
    (bezier_cut_eval hN) p hp s s0 s1
  rw [hs, hf, Option.some.injEq] at hu
  exact ⟨u, u0, u1, hu⟩

/-- **C123**: however a curve is cut, the smallest distance to an endpoint of a piece is at least the
distance to the curve, and exceeds it by at most half the length of the longest control polygon of
the pieces. -/
theorem C123_bounds (b : Bezier P N) (hN : 1 ≤ N) (f : ℝ → P) (hf : ∀ t, b.eval t = some (f t))
    (ps : List (Bezier P N)) (h : CutInto (fun q t => q.split t) b ps) (M : ℝ)
    (hM : ∀ p ∈ ps, controlPolygonLength p.control_points ≤ M) (x : P) (m d : ℝ)
    (hm : IsNearest x (endpointsOf hN ps) m) (hd : IsCurveDistance f x d) :
    m - M / 2 ≤ d ∧ d ≤ m := by
  constructor
  · refine hd.2 ?_
    rintro y ⟨t, t0, t1, rfl⟩
    obtain ⟨e, he, h1⟩ := cut_near b hN f hf ps h M hM t t0 t1
    have h2 := hm.2 e he
    have h3 := pdist_triangle x (f t) e
    linarith
  · obtain ⟨e, hem, rfl⟩ := hm.1
    obtain ⟨u, u0, u1, rfl⟩ := cut_endpoint_on b hN f hf ps h e hem
    exact hd.1 ⟨u, u0, u1, rfl⟩

/-- **C123** for two curves: however they are cut, the smallest distance between an endpoint of a
piece of the one and an endpoint of a piece of the other is at least the distance of the curves, and
exceeds it by at most half the sum of the lengths of the longest control polygons. -/
theorem C123_two_curves {N' : ℕ} (b : Bezier P N) (hN : 1 ≤ N) (f : ℝ → P)
    (hf : ∀ t, b.eval t = some (f t)) (b' : Bezier P N') (hN' : 1 ≤ N') (g : ℝ → P)
    (hg : ∀ t, b'.eval t = some (g t))
    (ps : List (Bezier P N)) (h : CutInto (fun q t => q.split t) b ps)
    (qs : List (Bezier P N')) (h' : CutInto (fun q t => q.split t) b' qs) (M M' : ℝ)
    (hM : ∀ p ∈ ps, controlPolygonLength p.control_points ≤ M)
    (hM' : ∀ p ∈ qs, controlPolygonLength p.control_points ≤ M') (m d : ℝ)
    (hm : IsNearestPair (endpointsOf hN ps) (endpointsOf hN' qs) m) (hd : IsCurvesDistance f g d) :
    m - (M + M') / 2 ≤ d ∧ d ≤ m := by
  constructor
  · refine hd.2 ?_
    rintro y ⟨s, t, s0, s1, t0, t1, rfl⟩
    obtain ⟨e, he, h1⟩ := cut_near b hN f hf ps h M hM s s0 s1
    obtain ⟨e', he', h1'⟩ := cut_near b' hN' g hg qs h' M' hM' t t0 t1
    have h2 := hm.2 e he e' he'
    have h3 := pdist_triangle e (f s) e'
    have h4 := pdist_triangle (f s) (g t) e'
    rw [pdist_comm e (f s)] at h3
    linarith
  · obtain ⟨e, he, e', he', rfl⟩ := hm.1
    obtain ⟨u, u0, u1, rfl⟩ := cut_endpoint_on b hN f hf ps h e he
    obtain ⟨v, v0, v1, rfl⟩ := cut_endpoint_on b' hN' g hg qs h' e' he'
    exact hd.1 ⟨u, v, u0, u1, v0, v1, rfl⟩

/-- The legs of the control polygon of each half are at most half as long. -/
theorem halve_legs (q : Bezier P N) (A : ℝ)
    (h : ∀ j, j + 1 ≤ N - 1 →
      ‖toE (extend q.control_points (j + 1)) - toE (extend q.control_points j)‖ ≤ A) :
    (∀ j, j + 1 ≤ N - 1 →
      ‖toE (extend q.halve.1.control_points (j + 1)) - toE (extend q.halve.1.control_points j)‖
        ≤ A / 2) ∧
    (∀ j, j + 1 ≤ N - 1 →
      ‖toE (extend q.halve.2.control_points (j + 1)) - toE (extend q.halve.2.control_points j)‖
        ≤ A / 2) := by
  have hX := toE_cas_succ (extend q.control_points) (1 / 2 : ℝ)
  have hrow : ∀ m j, m + j + 1 ≤ N - 1 →
      ‖toE (cas (extend q.control_points) (1 / 2 : ℝ) m (j + 1))
        - toE (cas (extend q.control_points) (1 / 2 : ℝ) m j)‖ ≤ A := by
    intro m
    induction m with
    | zero => intro j hj; exact h j (by omega)
    | succ m ih =>
      intro j hj
      have h1 := ih j (by omega)
      have h2 := ih (j + 1) (by omega)
      rw [hX, hX]
      set a := toE (cas (extend q.control_points) (1 / 2 : ℝ) m j)
      set b := toE (cas (extend q.control_points) (1 / 2 : ℝ) m (j + 1))
      set c := toE (cas (extend q.control_points) (1 / 2 : ℝ) m (j + 1 + 1))
      rw [show (1 - 1 / 2 : ℝ) • b + (1 / 2 : ℝ) • c - ((1 - 1 / 2 : ℝ) • a + (1 / 2 : ℝ) • b)
        = (1 / 2 : ℝ) • (b - a) + (1 / 2 : ℝ) • (c - b) by module]
      refine (norm_add_le _ _).trans ?_
      rw [norm_smul, norm_smul, Real.norm_of_nonneg (by norm_num)]
      linarith
  have hq := q.halve_spec
  rw [bezier_split_cas, Option.some.injEq] at hq
  rw [← hq]
  constructor
  · intro j hj
    rw [extend_lt _ (show j < N by omega), extend_lt _ (show j + 1 < N by omega)]
    dsimp only
    rw [hX]
    have := hrow j 0 (by omega)
    rw [Nat.zero_add] at this ⊢
    set a := toE (cas (extend q.control_points) (1 / 2 : ℝ) j 0)
    set b := toE (cas (extend q.control_points) (1 / 2 : ℝ) j 1)
    rw [show (1 - 1 / 2 : ℝ) • a + (1 / 2 : ℝ) • b - a = (1 / 2 : ℝ) • (b - a) by module, norm_smul,
      Real.norm_of_nonneg (by norm_num)]
    linarith
  · intro j hj
    rw [extend_lt _ (show j < N by omega), extend_lt _ (show j + 1 < N by omega)]
    dsimp only
    have := hrow (N - 1 - (j + 1)) j (by omega)
    rw [show N - 1 - j = N - 1 - (j + 1) + 1 by omega, hX]
    set a := toE (cas (extend q.control_points) (1 / 2 : ℝ) (N - 1 - (j + 1)) j)
    set b := toE (cas (extend q.control_points) (1 / 2 : ℝ) (N - 1 - (j + 1)) (j + 1))
    rw [show b - ((1 - 1 / 2 : ℝ) • a + (1 / 2 : ℝ) • b) = (1 / 2 : ℝ) • (b - a) by module, norm_smul,
      Real.norm_of_nonneg (by norm_num)]
    linarith

/-- **C123**: after `n` halvings the smallest distance to an endpoint of a piece exceeds the distance
to the curve by at most `(N-1)A / 2^(n+1)`, where `A` bounds the legs of the control polygon. -/
theorem C123_halving (b : Bezier P N) (hN : 1 ≤ N) (f : ℝ → P) (hf : ∀ t, b.eval t = some (f t))
    (A : ℝ) (hA : ∀ k (h : k + 1 < N), pdist (b.control_points ⟨k, by omega⟩)
      (b.control_points ⟨k + 1, h⟩) ≤ A) (n : ℕ) (x : P) (m d : ℝ)
    (hm : IsNearest x (endpointsOf hN (pieces Bezier.halve n b)) m) (hd : IsCurveDistance f x d) :
    m - ((N - 1 : ℕ) : ℝ) * A / 2 ^ (n + 1) ≤ d ∧ d ≤ m := by
  have h := C123_bounds b hN f hf (pieces Bezier.halve n b) (cutInto_pieces Bezier.halve_spec n b)
    (((N - 1 : ℕ) : ℝ) * (A / 2 ^ n)) (by
      intro p hp
      have := pieces_size_le (size := fun (q : Bezier P N) A => ∀ j, j + 1 ≤ N - 1 →
          ‖toE (extend q.control_points (j + 1)) - toE (extend q.control_points j)‖ ≤ A)
        halve_legs n b A (by
          intro j hj
          rw [norm_sub_rev, ← pdist_eq_norm, extend_lt _ (show j < N by omega),
            extend_lt _ (show j + 1 < N by omega)]
          exact hA j (by omega)) p hp
      rw [controlPolygonLength_eq]
      refine (Finset.sum_le_card_nsmul _ _ (A / 2 ^ n) fun k hk => this k ?_).trans ?_
      · have := Finset.mem_range.1 hk
        omega
      · rw [Finset.card_range, nsmul_eq_mul]) x m d hm hd
  refine ⟨le_trans (le_of_eq ?_) h.1, h.2⟩
  rw [pow_succ]
  field_simp

/-! ### Quadratic and cubic curves -/

/-- **C123** for quadratic curves, with `A` the larger leg of the control polygon. -/
theorem C123_quadratic (q : QuadraticBezier P) (n : ℕ) (x : P) (m d : ℝ)
    (hm : IsNearest x ((pieces QuadraticBezier.halve n q).flatMap fun p => [p.start, p.end_]) m)
    (hd : IsCurveDistance (fun t => q.eval t) x d) :
    m - q.leg / 2 ^ n ≤ d ∧ d ≤ m := by
  have hp : pieces Bezier.halve n q.generic
      = (pieces QuadraticBezier.halve n q).map QuadraticBezier.generic := by
    refine pieces_embed (fun p => ?_) n q
    have := p.generic.halve_spec
    rw [QuadraticBezier.generic_split, Option.some.injEq] at this
    exact this.symm
  have h := C123_halving q.generic (by norm_num) (fun t => q.eval t)
    (fun t => C32_quadratic_eval q.start q.ctrl q.end_ t) q.leg (by
      intro k hk
      obtain rfl | rfl : k = 0 ∨ k = 1 := by omega
      · exact le_max_left _ _
      · exact le_max_right _ _) n x m d (by
      rw [hp, endpointsOf, List.flatMap_map]
      exact hm) hd
  refine ⟨le_trans (le_of_eq ?_) h.1, h.2⟩
  rw [pow_succ]
  push_cast
  field_simp

/-- **C123** for cubic curves, with `A` the largest leg of the control polygon. -/
theorem C123_cubic (c : CubicBezier P) (n : ℕ) (x : P) (m d : ℝ)
    (hm : IsNearest x ((pieces CubicBezier.halve n c).flatMap fun p => [p.start, p.end_]) m)
    (hd : IsCurveDistance (fun t => c.eval t) x d) :
    m - 3 / 2 * c.leg / 2 ^ n ≤ d ∧ d ≤ m := by
  have hp : pieces Bezier.halve n c.generic
      = (pieces CubicBezier.halve n c).map CubicBezier.generic := by
    refine pieces_embed (fun p => ?_) n c
    have := p.generic.halve_spec
    rw [CubicBezier.generic_split, Option.some.injEq] at this
    exact this.symm
  have h := C123_halving c.generic (by norm_num) (fun t => c.eval t)
    (fun t => C32_cubic_eval c.start c.ctrl1 c.ctrl2 c.end_ t) c.leg (by
      intro k hk
      obtain rfl | rfl | rfl : k = 0 ∨ k = 1 ∨ k = 2 := by omega
      · exact le_max_left _ _
      · exact (le_max_left _ _).trans (le_max_right _ _)
      · exact (le_max_right _ _).trans (le_max_right _ _)) n x m d (by
      rw [hp, endpointsOf, List.flatMap_map]
      exact hm) hd
  refine ⟨le_trans (le_of_eq ?_) h.1, h.2⟩
  rw [pow_succ]
  push_cast
  field_simp

/-! ### The hypotheses can be met -/

/-- There is always a distance. -/
theorem C123_distance_exists (f : ℝ → P) (x : P) : ∃ d, 0 ≤ d ∧ IsCurveDistance f x d := by
  have hne : {y | ∃ t : ℝ, 0 ≤ t ∧ t ≤ 1 ∧ y = pdist x (f t)}.Nonempty :=
    ⟨_, 0, le_rfl, zero_le_one, rfl⟩
  have hbd : ∀ y ∈ {y | ∃ t : ℝ, 0 ≤ t ∧ t ≤ 1 ∧ y = pdist x (f t)}, 0 ≤ y := by
    rintro y ⟨t, _, _, rfl⟩
    exact pdist_nonneg _ _
  exact ⟨_, le_csInf hne hbd, isGLB_csInf hne ⟨0, hbd⟩⟩

/-- There is always a nearest of finitely many points. -/
theorem C123_nearest_exists (x : P) (ps : List P) (hps : ps ≠ []) : ∃ m, IsNearest x ps m := by
  induction ps with
  | nil => exact absurd rfl hps
  | cons a ps ih =>
    by_cases h : ps = []
    · subst h
      exact ⟨pdist x a, ⟨a, by simp, rfl⟩, by simp⟩
    · obtain ⟨m, ⟨p, hp, rfl⟩, hm⟩ := ih h
      rcases le_total (pdist x a) (pdist x p) with hle | hle
      · refine ⟨pdist x a, ⟨a, by simp, rfl⟩, fun e he => ?_⟩
        rcases List.mem_cons.1 he with rfl | he
        · exact le_rfl
        · exact hle.trans (hm e he)
      · refine ⟨pdist x p, ⟨p, by simp [hp], rfl⟩, fun e he => ?_⟩
        rcases List.mem_cons.1 he with rfl | he
        · exact hle
        · exact hm e he

/-- The same for two curves. -/
theorem C123_pair_exists (f g : ℝ → P) (ps qs : List P) (hps : ps ≠ []) (hqs : qs ≠ []) :
    (∃ d, 0 ≤ d ∧ IsCurvesDistance f g d) ∧ ∃ m, IsNearestPair ps qs m := by
  constructor
  · have hne : {y | ∃ s t : ℝ, 0 ≤ s ∧ s ≤ 1 ∧ 0 ≤ t ∧ t ≤ 1 ∧ y = pdist (f s) (g t)}.Nonempty :=
      ⟨_, 0, 0, le_rfl, zero_le_one, le_rfl, zero_le_one, rfl⟩
    have hbd : ∀ y ∈ {y | ∃ s t : ℝ, 0 ≤ s ∧ s ≤ 1 ∧ 0 ≤ t ∧ t ≤ 1 ∧ y = pdist (f s) (g t)}, 0 ≤ y := by
      rintro y ⟨s, t, _, _, _, _, rfl⟩
      exact pdist_nonneg _ _
    exact ⟨_, le_csInf hne hbd, isGLB_csInf hne ⟨0, hbd⟩⟩
  · obtain ⟨p0, hp0⟩ := List.exists_mem_of_ne_nil ps hps
    obtain ⟨q0, hq0⟩ := List.exists_mem_of_ne_nil qs hqs
    have hfin : {y | ∃ p ∈ ps, ∃ q ∈ qs, y = pdist p q}.Finite := by
      refine ((ps.product qs).map fun z => pdist z.1 z.2).toFinset.finite_toSet.subset ?_
      rintro y ⟨p, hp, q, hq, rfl⟩
      simp only [List.coe_toFinset, List.mem_map, Set.mem_ofPred_eq]
      exact ⟨(p, q), List.pair_mem_product.2 ⟨hp, hq⟩, rfl⟩
    obtain ⟨m, ⟨p, hp, q, hq, rfl⟩, hmin⟩ :=
      Set.exists_min_image _ id hfin ⟨_, p0, hp0, q0, hq0, rfl⟩
    exact ⟨_, ⟨p, hp, q, hq, rfl⟩, fun a ha b hb => hmin _ ⟨a, ha, b, hb, rfl⟩⟩

/-- The curve with control points (0,0), (1,1), (2,0), halved ten times, seen from (1,1): there is a
nearest endpoint, a distance, and they differ by at most √2/1024. -/
example : ∃ m d : ℝ, IsNearest (pt2 1 1) ((pieces QuadraticBezier.halve 10
      (QuadraticBezier.new (pt2 0 0) (pt2 1 1) (pt2 2 0))).flatMap fun p => [p.start, p.end_]) m ∧
    IsCurveDistance (fun t => (QuadraticBezier.new (pt2 0 0) (pt2 1 1) (pt2 2 0)).eval t)
      (pt2 1 1) d ∧ m - Real.sqrt 2 / 1024 ≤ d ∧ d ≤ m := by
  obtain ⟨d, _, hd⟩ := C123_distance_exists
    (fun t => (QuadraticBezier.new (pt2 0 0) (pt2 1 1) (pt2 2 0)).eval t) (pt2 1 1)
  have hne : (pieces QuadraticBezier.halve 10
      (QuadraticBezier.new (pt2 0 0) (pt2 1 1) (pt2 2 0))).flatMap (fun p => [p.start, p.end_]) ≠ [] := by
    intro hcon
    have h1 := congrArg List.length hcon
    rw [List.length_flatMap] at h1
    simp only [List.length_cons, List.length_nil, List.map_const', List.sum_replicate,
      pieces_length] at h1
    norm_num at h1
  obtain ⟨m, hm⟩ := C123_nearest_exists (pt2 1 1) _ hne
  refine ⟨m, d, hm, hd, ?_⟩
  have h := C123_quadratic _ 10 _ m d hm hd
  have hl : (QuadraticBezier.new (pt2 0 0) (pt2 1 1) (pt2 2 0)).leg = Real.sqrt 2 := by
    simp only [QuadraticBezier.leg, QuadraticBezier.new, pdist,
      show Point.dim (PointN ℝ 2) = 2 from rfl, Finset.sum_range_succ, Finset.sum_range_zero,
      coord_pt2_0, coord_pt2_1]
    norm_num
  rw [hl] at h
  norm_num at h ⊢
  exact h

end Curves

end Stroke
