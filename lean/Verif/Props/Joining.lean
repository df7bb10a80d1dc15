import Verif.Props.ArcLength
import Verif.Props.Tangents
import Mathlib.Analysis.Calculus.ContDiff.Basic
import Mathlib.Analysis.Calculus.IteratedDeriv.Lemmas

/-!
# Paths made of several curves (C127)
-/

set_option linter.unusedSectionVars false

namespace Stroke

open Set
open scoped ContDiff

variable {P : Type} [Point ℝ P] [LawfulPoint P] {N M : ℕ}

/-- The path that follows `f` up to the parameter 1 and then `g` from its parameter 0. -/
noncomputable def joined {α : Type} (f g : ℝ → α) (t : ℝ) : α := if t ≤ 1 then f t else g (t - 1)

/-! ### Real functions -/

theorem joined_continuous {f g : ℝ → ℝ} (hf : Continuous f) (hg : Continuous g) :
    Continuous (joined f g) ↔ f 1 = g 0 := by
  constructor
  · intro h
    have h1 : Filter.Tendsto (joined f g) (nhdsWithin 1 (Ioi 1)) (nhds (f 1)) := by
      have := (h.tendsto 1).mono_left (nhdsWithin_le_nhds (s := Ioi (1 : ℝ)))
      simpa [joined] using this
    have h2 : Filter.Tendsto (joined f g) (nhdsWithin 1 (Ioi 1)) (nhds (g 0)) := by
      have h3 : Filter.Tendsto (fun t : ℝ => g (t - 1)) (nhdsWithin 1 (Ioi 1)) (nhds (g 0)) := by
        have : Continuous fun t : ℝ => g (t - 1) := by fun_prop
        simpa using (this.tendsto 1).mono_left (nhdsWithin_le_nhds (s := Ioi (1 : ℝ)))
      refine h3.congr' ?_
      filter_upwards [self_mem_nhdsWithin] with t ht
      rw [joined, if_neg (not_le.2 ht)]
    exact tendsto_nhds_unique h1 h2
  · intro h
    refine Continuous.if_le hf (by fun_prop) continuous_id continuous_const fun t ht => ?_
    have ht : t = 1 := ht
    subst ht
    simpa using h

theorem joined_left {f g : ℝ → ℝ} {f' : ℝ} {t : ℝ} (ht : t ≤ 1) (hf : HasDerivAt f f' t) :
    HasDerivWithinAt (joined f g) f' (Iic 1) t :=
  hf.hasDerivWithinAt.congr (fun _ hx => if_pos hx) (if_pos ht)

theorem joined_right {f g : ℝ → ℝ} {g' : ℝ} {t : ℝ} (ht : 1 ≤ t) (h : f 1 = g 0)
    (hg : HasDerivAt g g' (t - 1)) : HasDerivWithinAt (joined f g) g' (Ici 1) t := by
  have key : ∀ x, 1 ≤ x → joined f g x = g (x - 1) := fun x hx => by
    unfold joined
    split_ifs with h1
    · rw [le_antisymm h1 hx, h, sub_self]
    · rfl
  have : HasDerivAt (fun x => g (x - 1)) g' t :=
    hg.comp_sub_const t 1
  exact this.hasDerivWithinAt.congr key (key t ht)

theorem joined_hasDerivAt {f g f' g' : ℝ → ℝ} (hf : ∀ t, HasDerivAt f (f' t) t)
    (hg : ∀ t, HasDerivAt g (g' t) t) (h0 : f 1 = g 0) (h1 : f' 1 = g' 0) (t : ℝ) :
    HasDerivAt (joined f g) (joined f' g' t) t := by
  rcases lt_trichotomy t 1 with ht | ht | ht
  · have : HasDerivWithinAt (joined f g) (f' t) (Iic 1) t := joined_left ht.le (hf t)
    rw [joined, if_pos ht.le]
    exact this.hasDerivAt (Iic_mem_nhds ht)
  · subst ht
    have e : joined f' g' 1 = f' 1 := if_pos le_rfl
    rw [e, ← hasDerivWithinAt_univ, ← Iic_union_Ici (a := (1 : ℝ))]
    refine (joined_left le_rfl (hf 1)).union (joined_right le_rfl h0 ?_)
    rw [h1, sub_self]
    exact hg 0
  · have : HasDerivWithinAt (joined f g) (g' (t - 1)) (Ici 1) t := joined_right ht.le h0 (hg _)
    rw [joined, if_neg (not_le.2 ht)]
    exact this.hasDerivAt (Ici_mem_nhds ht)

theorem joined_deriv_match {f g f' g' : ℝ → ℝ} (hf : ∀ t, HasDerivAt f (f' t) t)
    (hg : ∀ t, HasDerivAt g (g' t) t) (h0 : f 1 = g 0) {v : ℝ} (h : HasDerivAt (joined f g) v 1) :
    f' 1 = g' 0 := by
  have a := (uniqueDiffWithinAt_Iic (1 : ℝ)).eq_deriv _ (joined_left (g := g) le_rfl (hf 1))
    h.hasDerivWithinAt
  have b := (uniqueDiffWithinAt_Ici (1 : ℝ)).eq_deriv _
    (joined_right (f := f) le_rfl h0 (by rw [sub_self]; exact hg 0)) h.hasDerivWithinAt
  rw [a, b]

theorem joined_contDiff (k : ℕ) {f g : ℝ → ℝ} (hf : ContDiff ℝ ∞ f) (hg : ContDiff ℝ ∞ g) :
    ContDiff ℝ k (joined f g) ↔ ∀ j ≤ k, iteratedDeriv j f 1 = iteratedDeriv j g 0 := by
  induction k generalizing f g with
  | zero =>
    rw [Nat.cast_zero, contDiff_zero, joined_continuous hf.continuous hg.continuous]
    simp
  | succ k ih =>
    have df : ∀ t, HasDerivAt f (deriv f t) t := fun t =>
      ((hf.differentiable (by simp)) t).hasDerivAt
    have dg : ∀ t, HasDerivAt g (deriv g t) t := fun t =>
      ((hg.differentiable (by simp)) t).hasDerivAt
    have hf' : ContDiff ℝ ∞ (deriv f) := (contDiff_infty_iff_deriv.1 hf).2
    have hg' : ContDiff ℝ ∞ (deriv g) := (contDiff_infty_iff_deriv.1 hg).2
    have split : (∀ j ≤ k + 1, iteratedDeriv j f 1 = iteratedDeriv j g 0) ↔
        f 1 = g 0 ∧ ∀ j ≤ k, iteratedDeriv j (deriv f) 1 = iteratedDeriv j (deriv g) 0 := by
      constructor
      · intro h
        refine ⟨by simpa using h 0 (by omega), fun j hj => ?_⟩
        have := h (j + 1) (by omega)
        rwa [iteratedDeriv_succ', iteratedDeriv_succ'] at this
      · rintro ⟨h0, h⟩ j hj
        rcases j with _ | j
        · simpa using h0
        · rw [iteratedDeriv_succ', iteratedDeriv_succ']
          exact h j (by omega)
    rw [split, ← ih hf' hg']
    push_cast
    rw [contDiff_succ_iff_deriv]
    constructor
    · rintro ⟨hd, -, hc⟩
      have h0 := (joined_continuous hf.continuous hg.continuous).1 hd.continuous
      have h1 := joined_deriv_match df dg h0 (hd 1).hasDerivAt
      refine ⟨h0, ?_⟩
      have : deriv (joined f g) = joined (deriv f) (deriv g) :=
        funext fun t => (joined_hasDerivAt df dg h0 h1 t).deriv
      rwa [this] at hc
    · rintro ⟨h0, hc⟩
      have h1 := (joined_continuous hf'.continuous hg'.continuous).1 hc.continuous
      have : deriv (joined f g) = joined (deriv f) (deriv g) :=
        funext fun t => (joined_hasDerivAt df dg h0 h1 t).deriv
      refine ⟨fun t => (joined_hasDerivAt df dg h0 h1 t).differentiableAt, fun h => ?_, ?_⟩
      · simp at h
      · rwa [this]

/-! ### Curves -/

/-- The path through `f` and then `g` is `k` times continuously differentiable on every axis. -/
def SmoothPath (k : ℕ) (f g : ℝ → P) : Prop :=
  ∀ i < Point.dim P, ContDiff ℝ k fun t => coord (joined f g t) i

theorem coord_joined (f g : ℝ → P) (i : ℕ) :
    (fun t => coord (joined f g t) i) = joined (fun t => coord (f t) i) (fun t => coord (g t) i) := by
  funext t
  unfold joined
  split_ifs <;> rfl

theorem smoothPath_iff (k : ℕ) {f g : ℝ → P} (hf : ∀ i, ContDiff ℝ ∞ fun t => coord (f t) i)
    (hg : ∀ i, ContDiff ℝ ∞ fun t => coord (g t) i) :
    SmoothPath k f g ↔ ∀ i < Point.dim P, ∀ j ≤ k,
      iteratedDeriv j (fun t => coord (f t) i) 1 = iteratedDeriv j (fun t => coord (g t) i) 0 := by
  unfold SmoothPath
  refine forall_congr' fun i => forall_congr' fun _ => ?_
  rw [coord_joined, joined_contDiff k (hf i) (hg i)]

theorem point_ext_dim {p q : P} (h : ∀ i < Point.dim P, coord p i = coord q i) : p = q := by
  apply point_ext
  intro i
  by_cases hi : i < Point.dim P
  · exact h i hi
  · have e : ∀ r : P, coord r i = 0 := fun r => by
      have := mt (LawfulPoint.axis_isSome r i).1 hi
      rw [Bool.not_eq_true, Option.isSome_eq_false_iff, Option.isNone_iff_eq_none] at this
      rw [coord, this]
      rfl
    rw [e, e]

theorem bezier_smooth (b : Bezier P N) (hN : 1 ≤ N) {f : ℝ → P} (hf : ∀ t, b.eval t = some (f t))
    (i : ℕ) : ContDiff ℝ ∞ fun t => coord (f t) i := by
  have : (fun t => coord (f t) i)
      = bsum (N - 1) (fun k => coord (extend b.controlPoints k) i) := funext fun t => by
    obtain ⟨q, hq, hqc⟩ := C30_eval b hN t
    rw [hf] at hq
    rw [Option.some.inj hq, hqc, bezierCoord_eq_bsum hN]
  rw [this]
  exact contDiff_bsum _ _ _

/-- **C127**: the path that follows one curve and then another is `k` times continuously
differentiable exactly when the first `k` derivatives the library computes for the two curves give
the same vector at the end of the first and at the start of the second. -/
theorem C127_smooth (b : Bezier P N) (c : Bezier P M) {k : ℕ} (hN : k < N) (hM : k < M) :
    ∃ f g : ℝ → P, (∀ t, b.eval t = some (f t)) ∧ (∀ t, c.eval t = some (g t)) ∧
      (SmoothPath k f g ↔ ∀ j ≤ k, ∃ (d : Bezier P (N - j)) (e : Bezier P (M - j)) (p : P),
        derivatives j ⟨N, b⟩ = some ⟨N - j, d⟩ ∧ derivatives j ⟨M, c⟩ = some ⟨M - j, e⟩ ∧
        d.eval (1 : ℝ) = some p ∧ e.eval (0 : ℝ) = some p) := by
  obtain ⟨-, f, -, -, hf, -, -⟩ := C91_higher b hN
  obtain ⟨-, g, -, -, hg, -, -⟩ := C91_higher c hM
  refine ⟨f, g, hf, hg, ?_⟩
  rw [smoothPath_iff k (bezier_smooth b (by omega) hf) (bezier_smooth c (by omega) hg)]
  have key : ∀ j ≤ k, (∀ i < Point.dim P,
      iteratedDeriv j (fun t => coord (f t) i) 1 = iteratedDeriv j (fun t => coord (g t) i) 0) ↔
      ∃ (d : Bezier P (N - j)) (e : Bezier P (M - j)) (p : P),
        derivatives j ⟨N, b⟩ = some ⟨N - j, d⟩ ∧ derivatives j ⟨M, c⟩ = some ⟨M - j, e⟩ ∧
        d.eval (1 : ℝ) = some p ∧ e.eval (0 : ℝ) = some p := by
    intro j hj
    obtain ⟨d, f', v, hd, hf', hv, hdv⟩ := C91_higher b (k := j) (by omega)
    obtain ⟨e, g', w, he, hg', hw, hew⟩ := C91_higher c (k := j) (by omega)
    have ef : f' = f := funext fun t => Option.some.inj ((hf' t).symm.trans (hf t))
    have eg : g' = g := funext fun t => Option.some.inj ((hg' t).symm.trans (hg t))
    subst ef eg
    constructor
    · intro h
      refine ⟨d, e, v 1, hd, he, hv 1, ?_⟩
      rw [hw 0]
      congr 1
      refine point_ext_dim fun i hi => ?_
      rw [hdv 1 i hi, hew 0 i hi, h i hi]
    · rintro ⟨d', e', p, hd', he', hp, hq⟩ i hi
      rw [hd] at hd'
      rw [he] at he'
      have : d = d' := by simpa using hd'
      subst this
      have : e = e' := by simpa using he'
      subst this
      rw [hv] at hp
      rw [hw] at hq
      rw [← hdv 1 i hi, ← hew 0 i hi, Option.some.inj hp, Option.some.inj hq]
  constructor
  · exact fun h j hj => (key j hj).1 fun i hi => h i hi j hj
  · exact fun h i hi j hj => (key j hj).2 (h j hj) i hi

/-- **C127**: two curves join without a gap exactly when the last control point of the first is the
first control point of the second. -/
theorem C127_gap (b : Bezier P N) (c : Bezier P M) (hN : 1 ≤ N) (hM : 1 ≤ M) :
    ∃ f g : ℝ → P, (∀ t, b.eval t = some (f t)) ∧ (∀ t, c.eval t = some (g t)) ∧
      ((∀ i < Point.dim P, Continuous fun t => coord (joined f g t) i) ↔
        b.control_points ⟨N - 1, by omega⟩ = c.control_points ⟨0, hM⟩) := by
  obtain ⟨-, f, -, -, hf, -, -⟩ := C91_higher b (k := 0) hN
  obtain ⟨-, g, -, -, hg, -, -⟩ := C91_higher c (k := 0) hM
  refine ⟨f, g, hf, hg, ?_⟩
  have e1 : f 1 = b.control_points ⟨N - 1, by omega⟩ :=
    Option.some.inj ((hf 1).symm.trans (C31_endpoints b hN).2)
  have e2 : g 0 = c.control_points ⟨0, hM⟩ :=
    Option.some.inj ((hg 0).symm.trans (C31_endpoints c hM).1)
  rw [← e1, ← e2]
  have key : ∀ i, (Continuous fun t => coord (joined f g t) i) ↔ coord (f 1) i = coord (g 0) i :=
    fun i => by
      rw [coord_joined, joined_continuous (bezier_smooth b hN hf i).continuous
        (bezier_smooth c hM hg i).continuous]
  constructor
  · exact fun h => point_ext_dim fun i hi => (key i).1 (h i hi)
  · exact fun h i _ => (key i).2 (by rw [h])

/-- The first curve followed by the second, the second run through `r` times as fast. -/
theorem joined_speed {f g : ℝ → P} {f' g' : ℝ → P} (hf : ∀ t, HasPointDerivAt f (coord (f' t)) t)
    (hg : ∀ t, HasPointDerivAt g (coord (g' t)) t) (h0 : f 1 = g 0) (r : ℝ) :
    (∃ v, HasPointDerivAt (joined f fun t => g (r * t)) v 1) ↔ f' 1 = g' 0 * r := by
  have hr : ∀ i < Point.dim P, ∀ t, HasDerivAt (fun u => coord (g (r * u)) i)
      (coord (g' (r * t) * r) i) t := fun i hi t => by
    rw [coord_mul]
    have h1 : HasDerivAt (fun u : ℝ => r * u) r t := by
      simpa using (hasDerivAt_id t).const_mul r
    exact HasDerivAt.comp t (h₂ := fun u => coord (g u) i) (hg (r * t) i hi) h1
  constructor
  · rintro ⟨v, hv⟩
    refine point_ext_dim fun i hi => ?_
    have h := hv i hi
    rw [coord_joined] at h
    have := joined_deriv_match (fun t => hf t i hi) (hr i hi) (by simp [h0]) h
    simpa using this
  · intro h
    refine ⟨coord (f' 1), fun i hi => ?_⟩
    rw [coord_joined]
    have := joined_hasDerivAt (fun t => hf t i hi) (hr i hi) (by simp [h0]) (by simp [h]) 1
    simpa [joined] using this

/-- **C127**: two curves that meet join smoothly (with the same velocity) exactly when the last leg
of the first control polygon and the first leg of the second agree, weighted by the degrees. -/
theorem C127_kink (b : Bezier P N) (c : Bezier P M) (hN : 2 ≤ N) (hM : 2 ≤ M)
    (h0 : b.control_points ⟨N - 1, by omega⟩ = c.control_points ⟨0, by omega⟩) :
    ∃ f g : ℝ → P, (∀ t, b.eval t = some (f t)) ∧ (∀ t, c.eval t = some (g t)) ∧
      ∀ r : ℝ, (∃ v, HasPointDerivAt (joined f fun t => g (r * t)) v 1) ↔
        ∀ i < Point.dim P, (N - 1 : ℝ) * (coord (b.control_points ⟨N - 1, by omega⟩) i
            - coord (b.control_points ⟨N - 2, by omega⟩) i)
          = r * ((M - 1 : ℝ) * (coord (c.control_points ⟨1, by omega⟩) i
            - coord (c.control_points ⟨0, by omega⟩) i)) := by
  obtain ⟨d, f, f', hd, hf, hf', hdf⟩ := bezier_derivative_curve b hN
  obtain ⟨e, g, g', he, hg, hg', heg⟩ := bezier_derivative_curve c hM
  refine ⟨f, g, hf, hg, fun r => ?_⟩
  have e1 : f 1 = b.control_points ⟨N - 1, by omega⟩ :=
    Option.some.inj ((hf 1).symm.trans (C31_endpoints b (by omega)).2)
  have e2 : g 0 = c.control_points ⟨0, by omega⟩ :=
    Option.some.inj ((hg 0).symm.trans (C31_endpoints c (by omega)).1)
  rw [joined_speed hdf heg (by rw [e1, e2, h0]) r]
  obtain ⟨d', _, w, hd', -, hw, hwc⟩ := C91_end_tangents b hN
  obtain ⟨e', v, _, he', hv, -, hvc⟩ := C91_end_tangents c hM
  rw [hd] at hd'
  rw [he] at he'
  cases hd'
  cases he'
  have a1 : f' 1 = w := Option.some.inj ((hf' 1).symm.trans hw)
  have a2 : g' 0 = v := Option.some.inj ((hg' 0).symm.trans hv)
  rw [a1, a2]
  constructor
  · intro h i _
    rw [← (hwc i).2, ← (hvc i).1, h, coord_mul, mul_comm]
  · intro h
    refine point_ext_dim fun i hi => ?_
    rw [coord_mul, (hwc i).2, (hvc i).1, h i hi, mul_comm]

/-! ### Cubic curves -/

theorem cubic_smooth (c : CubicBezier P) (i : ℕ) : ContDiff ℝ ∞ fun t : ℝ => coord (c.eval t) i := by
  simp only [C20_eval]
  fun_prop

theorem cubic_deriv (c : CubicBezier P) {i : ℕ} (hi : i < Point.dim P) :
    iteratedDeriv 1 (fun t : ℝ => coord (c.eval t) i) = fun t : ℝ => coord (c.derivative.eval t) i := by
  rw [iteratedDeriv_one]
  exact funext fun t => (C22_derivative c t i hi).deriv

theorem cubic_deriv2 (c : CubicBezier P) {i : ℕ} (hi : i < Point.dim P) :
    iteratedDeriv 2 (fun t : ℝ => coord (c.eval t) i)
      = fun t : ℝ => coord (c.derivative.derivative.eval t) i := by
  rw [iteratedDeriv_succ, cubic_deriv c hi]
  exact funext fun t => (C12_derivative c.derivative t i hi).deriv

/-- **C127** for cubic curves, in terms of the handles. The path through `a` and then `c` is
continuous when `c` starts at the end of `a`; it has a continuous velocity when moreover the handles
at the joint are mirror images of each other; it has a continuous acceleration when moreover the
second differences of the control points at the joint agree. -/
theorem C127_cubic (a c : CubicBezier P) :
    (SmoothPath 0 (fun t : ℝ => a.eval t) (fun t : ℝ => c.eval t) ↔ a.end_ = c.start) ∧
    (SmoothPath 1 (fun t : ℝ => a.eval t) (fun t : ℝ => c.eval t) ↔
      a.end_ = c.start ∧ c.ctrl1 - c.start = a.end_ - a.ctrl2) ∧
    (SmoothPath 2 (fun t : ℝ => a.eval t) (fun t : ℝ => c.eval t) ↔
      a.end_ = c.start ∧ c.ctrl1 - c.start = a.end_ - a.ctrl2 ∧
      (c.ctrl2 - c.ctrl1) - (c.ctrl1 - c.start) = (a.end_ - a.ctrl2) - (a.ctrl2 - a.ctrl1)) := by
  have ha := cubic_smooth a
  have hc := cubic_smooth c
  have k0 : (∀ i < Point.dim P, iteratedDeriv 0 (fun t : ℝ => coord (a.eval t) i) 1
      = iteratedDeriv 0 (fun t : ℝ => coord (c.eval t) i) 0) ↔ a.end_ = c.start := by
    simp only [iteratedDeriv_zero, (C20_endpoints a).2, (C20_endpoints c).1]
    exact ⟨fun h => point_ext_dim h, fun h i _ => by rw [h]⟩
  have k1 : (∀ i < Point.dim P, iteratedDeriv 1 (fun t : ℝ => coord (a.eval t) i) 1
      = iteratedDeriv 1 (fun t : ℝ => coord (c.eval t) i) 0) ↔
      c.ctrl1 - c.start = a.end_ - a.ctrl2 := by
    have e : ∀ i < Point.dim P, (iteratedDeriv 1 (fun t : ℝ => coord (a.eval t) i) 1
        = iteratedDeriv 1 (fun t : ℝ => coord (c.eval t) i) 0) ↔
        coord (c.ctrl1 - c.start) i = coord (a.end_ - a.ctrl2) i := fun i hi => by
      rw [cubic_deriv a hi, cubic_deriv c hi]
      beta_reduce
      rw [(C91_end_tangents_specialised ⟨a.start, a.ctrl1, a.end_⟩ a i).2.2.2,
        (C91_end_tangents_specialised ⟨a.start, a.ctrl1, a.end_⟩ c i).2.2.1, coord_sub, coord_sub]
      constructor <;> intro h <;> linarith
    exact ⟨fun h => point_ext_dim fun i hi => (e i hi).1 (h i hi),
      fun h i hi => (e i hi).2 (by rw [h])⟩
  have k2 : (∀ i < Point.dim P, iteratedDeriv 2 (fun t : ℝ => coord (a.eval t) i) 1
      = iteratedDeriv 2 (fun t : ℝ => coord (c.eval t) i) 0) ↔
      (c.ctrl2 - c.ctrl1) - (c.ctrl1 - c.start) = (a.end_ - a.ctrl2) - (a.ctrl2 - a.ctrl1) := by
    have e : ∀ i < Point.dim P, (iteratedDeriv 2 (fun t : ℝ => coord (a.eval t) i) 1
        = iteratedDeriv 2 (fun t : ℝ => coord (c.eval t) i) 0) ↔
        coord ((c.ctrl2 - c.ctrl1) - (c.ctrl1 - c.start)) i
          = coord ((a.end_ - a.ctrl2) - (a.ctrl2 - a.ctrl1)) i := fun i hi => by
      rw [cubic_deriv2 a hi, cubic_deriv2 c hi]
      beta_reduce
      rw [C05_eval, C05_eval]
      simp [QuadraticBezier.derivative, CubicBezier.derivative]
      constructor <;> intro h <;> linarith
    exact ⟨fun h => point_ext_dim fun i hi => (e i hi).1 (h i hi),
      fun h i hi => (e i hi).2 (by rw [h])⟩
  have sm : ∀ k, SmoothPath k (fun t : ℝ => a.eval t) (fun t : ℝ => c.eval t) ↔
      ∀ j ≤ k, ∀ i < Point.dim P, iteratedDeriv j (fun t : ℝ => coord (a.eval t) i) 1
        = iteratedDeriv j (fun t : ℝ => coord (c.eval t) i) 0 := fun k => by
    rw [smoothPath_iff k ha hc]
    exact ⟨fun h j hj i hi => h i hi j hj, fun h i hi j hj => h j hj i hi⟩
  refine ⟨?_, ?_, ?_⟩
  · rw [sm, ← k0]
    exact ⟨fun h => h 0 le_rfl, fun h j hj => by rw [Nat.le_zero.1 hj]; exact h⟩
  · rw [sm, ← k0, ← k1]
    refine ⟨fun h => ⟨h 0 (by omega), h 1 le_rfl⟩, fun h j hj => ?_⟩
    interval_cases j
    exacts [h.1, h.2]
  · rw [sm, ← k0, ← k1, ← k2]
    refine ⟨fun h => ⟨h 0 (by omega), h 1 (by omega), h 2 le_rfl⟩, fun h j hj => ?_⟩
    interval_cases j
    exacts [h.1, h.2.1, h.2.2]

/-- Two cubics with mirrored handles: the path has a continuous velocity, but not a continuous
acceleration. -/
example :
    SmoothPath 1 (fun t : ℝ => (⟨pt2 0 0, pt2 0 1, pt2 1 2, pt2 2 2⟩ : CubicBezier (PointN ℝ 2)).eval t)
      (fun t : ℝ => (⟨pt2 2 2, pt2 3 2, pt2 5 0, pt2 6 0⟩ : CubicBezier (PointN ℝ 2)).eval t) ∧
    ¬ SmoothPath 2
      (fun t : ℝ => (⟨pt2 0 0, pt2 0 1, pt2 1 2, pt2 2 2⟩ : CubicBezier (PointN ℝ 2)).eval t)
      (fun t : ℝ => (⟨pt2 2 2, pt2 3 2, pt2 5 0, pt2 6 0⟩ : CubicBezier (PointN ℝ 2)).eval t) := by
  refine ⟨(C127_cubic _ _).2.1.2 ⟨rfl, ?_⟩, fun h => ?_⟩
  · apply point_ext_dim
    intro i hi
    rw [coord_sub, coord_sub]
    have hi : i < 2 := hi
    interval_cases i <;> (simp; try norm_num)
  · have := congrArg (fun p => coord p 0) ((C127_cubic _ _).2.2.1 h).2.2
    simp only [coord_sub] at this
    simp at this
    norm_num at this

/-- A line and a parabola that meet: the path has no kink, whatever the speeds, only when the legs
at the joint point the same way. -/
example : ∃ f g : ℝ → PointN ℝ 2,
    (∀ t, (⟨![pt2 0 0, pt2 1 1]⟩ : Bezier (PointN ℝ 2) 2).eval t = some (f t)) ∧
    (∀ t, (⟨![pt2 1 1, pt2 2 2, pt2 3 0]⟩ : Bezier (PointN ℝ 2) 3).eval t = some (g t)) ∧
    (∃ v, HasPointDerivAt (joined f fun t => g (1 / 2 * t)) v 1) ∧
    ¬ ∃ v, HasPointDerivAt (joined f g) v 1 := by
  obtain ⟨f, g, hf, hg, h⟩ := C127_kink (⟨![pt2 0 0, pt2 1 1]⟩ : Bezier (PointN ℝ 2) 2)
    (⟨![pt2 1 1, pt2 2 2, pt2 3 0]⟩ : Bezier (PointN ℝ 2) 3) (by norm_num) (by norm_num) rfl
  refine ⟨f, g, hf, hg, (h (1 / 2)).2 fun i hi => ?_, fun hv => ?_⟩
  · have hi : i < 2 := hi
    interval_cases i <;> simp <;> norm_num
  · have := (h 1).1 (by simpa using hv) 0 (by show 0 < 2; norm_num)
    simp at this
    norm_num at this

/-- `C127_smooth` on two parabolas with the same leg at the joint. -/
example : ∃ f g : ℝ → PointN ℝ 2,
    (∀ t, (⟨![pt2 0 0, pt2 1 2, pt2 2 2]⟩ : Bezier (PointN ℝ 2) 3).eval t = some (f t)) ∧
    (∀ t, (⟨![pt2 2 2, pt2 3 2, pt2 4 0]⟩ : Bezier (PointN ℝ 2) 3).eval t = some (g t)) ∧
    SmoothPath 1 f g := by
  obtain ⟨f, g, hf, hg, h⟩ := C127_smooth (⟨![pt2 0 0, pt2 1 2, pt2 2 2]⟩ : Bezier (PointN ℝ 2) 3)
    (⟨![pt2 2 2, pt2 3 2, pt2 4 0]⟩ : Bezier (PointN ℝ 2) 3) (k := 1) (by norm_num) (by norm_num)
  refine ⟨f, g, hf, hg, h.2 fun j hj => ?_⟩
  rcases Nat.le_one_iff_eq_zero_or_eq_one.1 hj with rfl | rfl
  · exact ⟨_, _, _, rfl, rfl,
      (C31_endpoints (⟨![pt2 0 0, pt2 1 2, pt2 2 2]⟩ : Bezier (PointN ℝ 2) 3) (by norm_num)).2,
      (C31_endpoints (⟨![pt2 2 2, pt2 3 2, pt2 4 0]⟩ : Bezier (PointN ℝ 2) 3) (by norm_num)).1⟩
  · obtain ⟨d, _, w, hd, -, hw, hwc⟩ := C91_end_tangents
      (⟨![pt2 0 0, pt2 1 2, pt2 2 2]⟩ : Bezier (PointN ℝ 2) 3) (by norm_num)
    obtain ⟨e, v, _, he, hv, -, hvc⟩ := C91_end_tangents
      (⟨![pt2 2 2, pt2 3 2, pt2 4 0]⟩ : Bezier (PointN ℝ 2) 3) (by norm_num)
    have : v = w := point_ext_dim fun i hi => by
      have hi : i < 2 := hi
      refine (hvc i).1.trans (Eq.trans ?_ (hwc i).2.symm)
      interval_cases i <;> (simp; try norm_num)
    subst this
    refine ⟨d, e, v, ?_, ?_, hw, hv⟩
    · exact congrArg (Option.map fun x => (⟨2, x⟩ : Σ M, Bezier (PointN ℝ 2) M)) hd
    · exact congrArg (Option.map fun x => (⟨2, x⟩ : Σ M, Bezier (PointN ℝ 2) M)) he

end Stroke
