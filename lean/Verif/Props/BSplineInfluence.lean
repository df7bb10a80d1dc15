import Verif.Props.BSplineVariation
import Verif.Props.BSplineChord
import Verif.Props.BSplineJoints

set_option linter.unusedSectionVars false

/-!
# Moving one control point of a B-spline (C153)

Moving control point `j` of a B-spline by `v` moves the point at `t` by `v` times the value of basis
function `j` at `t`: a fraction between 0 and 1, and 0 outside the `D + 1` spans after knot `j`.  The effect
rises to a maximum and falls again: at a parameter between two others it is no smaller than at both.

`evalFixed` (Verif/Repaired/Model.lean) has the property; `eval` ignores the control point in the first of
the spans (`C153_partial`, `C153_false`), but there too the effect only rises and falls.
-/

namespace Stroke

section Basis
variable {u : ℕ → ℝ} {K C D : ℕ}

/-! ### One pulse has at most two sign changes -/

theorem changesFrom_replicate {q : ℝ} (hq : q ≠ 0) (l : List ℝ) : ∀ n,
    changesFrom (SignType.sign q) (List.replicate n q ++ l) = changesFrom (SignType.sign q) l := by
  intro n
  induction n with
  | zero => rfl
  | succ n ih =>
    rw [List.replicate_succ, List.cons_append, changesFrom, if_neg hq, ih]
    simp

theorem changesFrom_pulse {q : ℝ} (hq : q ≠ 0) (p : ℝ) (n m : ℕ) :
    changesFrom 0 (List.replicate (n + 1) q ++ p :: List.replicate m q) ≤ 2 := by
  rw [List.replicate_succ, List.cons_append, changesFrom, if_neg hq, changesFrom_replicate hq]
  have none : changesFrom (SignType.sign q) (List.replicate m q) = 0 := by
    have := changesFrom_replicate hq [] m
    rw [List.append_nil] at this
    rw [this]
    rfl
  have e : changesFrom (SignType.sign q) (p :: List.replicate m q) ≤ 2 := by
    rw [changesFrom]
    split_ifs with h1 h2
    · rw [none]; omega
    · have := changesFrom_le (List.replicate m q) (SignType.sign p) (SignType.sign q) (by simpa using hq)
      rw [none] at this
      split_ifs at this <;> omega
    · have := changesFrom_le (List.replicate m q) (SignType.sign p) (SignType.sign q) (by simpa using hq)
      rw [none] at this
      split_ifs at this <;> omega
  simpa using e

/-! ### Basis functions rise and fall -/

/-- Basis functions depend on their own knots only. -/
theorem coxDeBoor_own_knots {w : ℕ → ℝ} {s : ℕ} (h : ∀ i < K, w (i + s) = u i) (t : ℝ) : ∀ (d j : ℕ),
    j + d + 1 < K → coxDeBoor w d (j + s) t = coxDeBoor u d j t := by
  intro d
  induction d with
  | zero =>
    intro j hj
    simp only [coxDeBoor]
    rw [h j (by omega), show j + s + 1 = j + 1 + s by omega, h (j + 1) (by omega)]
  | succ d ih =>
    intro j hj
    simp only [coxDeBoor]
    rw [ih j (by omega), show j + s + 1 = j + 1 + s by omega, ih (j + 1) (by omega),
      show j + s + d + 1 = j + d + 1 + s by omega, show j + s + d + 2 = j + d + 2 + s by omega,
      h _ (by omega), h _ (by omega), h _ (by omega), h _ (by omega)]

/-- A basis function rises to its maximum and falls again. -/
theorem basis_unimodal (hm : ∀ i j, i ≤ j → j < K → u i ≤ u j) (hK : K = C + D + 1) {j : ℕ} (hj : j < C)
    {a b c : ℝ} (hab : a ≤ b) (hbc : b ≤ c) :
    min (coxDeBoor u D j a) (coxDeBoor u D j c) ≤ coxDeBoor u D j b := by
  have nonneg := fun t => coxDeBoor_nonneg (t := t) hm D j (by omega)
  rcases Nat.eq_zero_or_pos D with h0 | hD
  · subst h0
    simp only [coxDeBoor]
    by_cases h1 : u j ≤ a ∧ a < u (j + 1)
    · by_cases h2 : u j ≤ c ∧ c < u (j + 1)
      · rw [if_pos (⟨h1.1.trans hab, hbc.trans_lt h2.2⟩ : u j ≤ b ∧ b < u (j + 1))]
        refine (min_le_left _ _).trans ?_
        rw [if_pos h1]
      · rw [if_neg h2]
        refine (min_le_right _ _).trans ?_
        split_ifs <;> norm_num
    · rw [if_neg h1]
      refine (min_le_left _ _).trans ?_
      split_ifs <;> norm_num
  by_contra hlt
  rw [not_le, lt_min_iff] at hlt
  obtain ⟨la, lc⟩ := hlt
  obtain ⟨x, x1, x2⟩ := exists_between (lt_min la lc)
  obtain ⟨xa, xc⟩ := lt_min_iff.1 x2
  have x0 : 0 < x := (nonneg b).trans_lt x1
  have ab : a < b := lt_of_le_of_ne hab (by rintro rfl; linarith)
  have bc : b < c := lt_of_le_of_ne hbc (by rintro rfl; linarith)
  -- the support
  have sup : ∀ t, x < coxDeBoor u D j t → u 0 ≤ t ∧ t < u (K - 1) := by
    intro t ht
    by_contra hn
    have : coxDeBoor u D j t = 0 := coxDeBoor_support hm D j (by omega) fun hs =>
      hn ⟨(hm 0 j (by omega) (by omega)).trans hs.1, hs.2.trans_le (hm _ _ (by omega) (by omega))⟩
    linarith
  obtain ⟨a1, -⟩ := sup a xa
  obtain ⟨-, c2⟩ := sup c xc
  -- more knots on both sides
  set w : ℕ → ℝ := fun i => if i < D + 1 then u 0 - 1 else if i < D + 1 + K then u (i - (D + 1))
    else u (K - 1) + 1 with hw
  set C' := C + 2 * (D + 1) with hC'
  have wm : ∀ i j, i ≤ j → j < C' + D + 1 → w i ≤ w j := by
    intro i l hil hl
    have ends := hm 0 (K - 1) (by omega) (by omega)
    simp only [hw]
    split_ifs with p1 p2 p3 p4 p5 p6
    · exact le_rfl
    · have := hm 0 (l - (D + 1)) (by omega) (by omega); linarith
    · linarith
    · omega
    · exact hm _ _ (by omega) (by omega)
    · have := hm (i - (D + 1)) (K - 1) (by omega) (by omega); linarith
    · omega
    · omega
    · exact le_rfl
  have wD : w D = u 0 - 1 := by simp [hw]
  have wC : w C' = u (K - 1) + 1 := by
    simp only [hw]
    rw [if_neg (by omega), if_neg (by omega)]
  have wu : ∀ i < K, w (i + (D + 1)) = u i := by
    intro i hi
    simp only [hw]
    rw [if_neg (by omega), if_pos (by omega), Nat.add_sub_cancel]
  set y : ℕ → ℝ := fun i => if i = j + (D + 1) then 1 - x else -x with hy
  -- the pulse
  have ly : (List.range C').map y = List.replicate (j + D + 1) (-x) ++ (1 - x) ::
      List.replicate (C' - (j + D + 1) - 1) (-x) := by
    apply List.ext_getElem
    · simp; omega
    · intro n h1 h2
      simp only [List.getElem_map, List.getElem_range, hy]
      rw [List.getElem_append]
      split_ifs with q1 q2 q3
      · simp at q2; omega
      · simp at q2 ⊢
        simp [show n - (j + D + 1) = 0 by omega]
      · simp
      · simp at q3 ⊢
        obtain ⟨e, he⟩ : ∃ e, n - (j + D + 1) = e + 1 := ⟨n - (j + D + 1) - 1, by omega⟩
        simp [he]
  have two : changesFrom 0 ((List.range C').map y) ≤ 2 := by
    rw [ly]
    exact changesFrom_pulse (by linarith) _ _ _
  have val : ∀ t, u 0 - 1 ≤ t → t < u (K - 1) + 1 → splineValue D C' w y t = coxDeBoor u D j t - x := by
    intro t h1 h2
    rw [← wD] at h1
    rw [← wC] at h2
    rw [splineValue, if_pos h2]
    have one := basis_sum_one wm rfl (by omega : D < C') h1 h2
    have e : ∀ i, coxDeBoor w D i t * y i
        = (if i = j + (D + 1) then coxDeBoor w D i t else 0) - x * coxDeBoor w D i t := by
      intro i
      simp only [hy]
      split_ifs <;> ring
    simp only [e]
    rw [Finset.sum_sub_distrib, ← Finset.mul_sum, one, mul_one, Finset.sum_ite_eq' (Finset.range C'),
      if_pos (Finset.mem_range.2 (by omega)), coxDeBoor_own_knots wu t D j (by omega)]
  have vend : splineValue D C' w y (u (K - 1) + 1) = -x := by
    rw [splineValue, if_neg (by rw [wC]; exact lt_irrefl _)]
    simp only [hy]
    rw [if_neg (by omega)]
  have v0 : splineValue D C' w y (u 0 - 1) = -x := by
    rw [val _ le_rfl (by have := hm 0 (K - 1) (by omega) (by omega); linarith),
      coxDeBoor_support hm D j (by omega) fun hs => by
        have := (hm 0 j (by omega) (by omega)).trans hs.1; linarith]
    ring
  have four := changes_spline (y := y) hD (by omega : D < C') wm [u 0 - 1, a, b, c, u (K - 1) + 1]
    (by
      have : u 0 - 1 < a := by linarith
      have : c < u (K - 1) + 1 := by linarith
      simp only [List.pairwise_cons, List.mem_cons, List.not_mem_nil, or_false, forall_eq_or_imp, forall_eq,
        false_imp_iff, implies_true, List.Pairwise.nil, and_true]
      refine ⟨⟨?_, ?_, ?_, ?_⟩, ⟨?_, ?_, ?_⟩, ⟨?_, ?_⟩, ?_⟩ <;> linarith)
    (by
      rw [wD, wC]
      intro z hz
      simp only [List.mem_cons, List.not_mem_nil, or_false] at hz
      rcases hz with rfl | rfl | rfl | rfl | rfl <;> constructor <;> linarith)
  simp only [List.map_cons, List.map_nil, v0, vend] at four
  rw [val a (by linarith) (by linarith), val b (by linarith) (by linarith),
    val c (by linarith) (by linarith)] at four
  have sn : ∀ z : ℝ, z < 0 → SignType.sign z = -1 := fun z hz => sign_neg hz
  have sp : ∀ z : ℝ, 0 < z → SignType.sign z = 1 := fun z hz => sign_pos hz
  have n1 : -x < 0 := by linarith
  have p1 : 0 < coxDeBoor u D j a - x := by linarith
  have n2 : coxDeBoor u D j b - x < 0 := by linarith
  have p2 : 0 < coxDeBoor u D j c - x := by linarith
  have : changesFrom 0 [-x, coxDeBoor u D j a - x, coxDeBoor u D j b - x, coxDeBoor u D j c - x, -x] = 4 := by
    simp only [changesFrom, if_neg n1.ne, if_neg p1.ne', if_neg n2.ne, if_neg p2.ne', sn _ n1, sp _ p1,
      sn _ n2, sp _ p2]
    decide
  omega

/-- The effect of control point `j` on `eval`: none in the first span. -/
noncomputable def evalInfluence (u : ℕ → ℝ) (D j : ℕ) (t : ℝ) : ℝ :=
  if u j ≤ t ∧ t < u (j + 1) then 0 else coxDeBoor u D j t

theorem evalInfluence_le (hm : ∀ i j, i ≤ j → j < K → u i ≤ u j) (hK : K = C + D + 1) {j : ℕ} (hj : j < C)
    (t : ℝ) : 0 ≤ evalInfluence u D j t ∧ evalInfluence u D j t ≤ coxDeBoor u D j t := by
  have := coxDeBoor_nonneg (t := t) hm D j (by omega)
  unfold evalInfluence
  split_ifs <;> exact ⟨by linarith, by linarith⟩

theorem evalInfluence_unimodal (hm : ∀ i j, i ≤ j → j < K → u i ≤ u j) (hK : K = C + D + 1) {j : ℕ}
    (hj : j < C) {a b c : ℝ} (hab : a ≤ b) (hbc : b ≤ c) :
    min (evalInfluence u D j a) (evalInfluence u D j c) ≤ evalInfluence u D j b := by
  have le := fun t => evalInfluence_le (t := t) hm hK hj
  by_cases hb : u j ≤ b ∧ b < u (j + 1)
  · refine (min_le_left _ _).trans ?_
    have : evalInfluence u D j a = 0 := by
      unfold evalInfluence
      split_ifs with h
      · rfl
      · exact coxDeBoor_support hm D j (by omega) fun hs => h ⟨hs.1, hab.trans_lt hb.2⟩
    rw [this]
    exact (le b).1
  · have : evalInfluence u D j b = coxDeBoor u D j b := if_neg hb
    rw [this]
    exact (min_le_min (le a).2 (le c).2).trans (basis_unimodal hm hK hj hab hbc)

end Basis

section Splines
variable {P : Type} [Point ℝ P] [LawfulPoint P] {K C D : ℕ}
variable {knots : Arr ℝ K} {ps : Arr P C} {b b' : BSpline ℝ P K C D}

/-- The control points with `v` added to the one with index `j`. -/
noncomputable def movedPoint (ps : Arr P C) (j : ℕ) (v : P) : Arr P C :=
  fun i => if i.val = j then ps i + v else ps i

theorem splineCoord_moved {j : ℕ} (hj : j < C) (v : P) (t : ℝ) (c : ℕ) :
    splineCoord D knots (movedPoint ps j v) t c
      = splineCoord D knots ps t c + coord v c * coxDeBoor (knotAt knots) D j t := by
  unfold splineCoord movedPoint
  have e : ∀ i : Fin C, coxDeBoor (knotAt knots) D i.val t
      * coord (if i.val = j then ps i + v else ps i) c
      = coxDeBoor (knotAt knots) D i.val t * coord (ps i) c
        + (if i = ⟨j, hj⟩ then coord v c * coxDeBoor (knotAt knots) D j t else 0) := by
    intro i
    by_cases hi : i.val = j
    · rw [if_pos hi, if_pos (Fin.ext hi), coord_add, hi]
      ring
    · rw [if_neg hi, if_neg fun h => hi (congrArg Fin.val h), add_zero]
  simp only [e]
  rw [Finset.sum_add_distrib, Finset.sum_ite_eq' Finset.univ, if_pos (Finset.mem_univ _)]

/-- How far a point moves. -/
theorem pdist_moved {p q v : P} {x : ℝ} (hx : 0 ≤ x) (h : q = p + v * x) :
    pdist p q = x * pdist v Point.default := by
  unfold pdist
  have e : ∀ c ∈ Finset.range (Point.dim P), (coord p c - coord q c) ^ 2
      = x ^ 2 * (coord v c - coord (Point.default : P) c) ^ 2 := by
    intro c _
    rw [h, coord_add, coord_mul, coord_default]
    ring
  rw [Finset.sum_congr rfl e, ← Finset.mul_sum, Real.sqrt_mul (sq_nonneg x), Real.sqrt_sq hx]

/-- **C153** for the repaired program: the point at `t` moves by the value of the basis function. -/
theorem C153_repaired (h : BSpline.new knots ps = .ok b) {j : ℕ} (hj : j < C) (v : P)
    (h' : BSpline.new knots (movedPoint ps j v) = .ok b') {t : ℝ} (h1 : knotAt knots D ≤ t)
    (h2 : t < knotAt knots C) :
    ∃ p, b.evalFixed t = .ok p ∧ b'.evalFixed t = .ok (p + v * coxDeBoor (knotAt knots) D j t) := by
  obtain ⟨p, hp, ec⟩ := C121_bspline h h1 h2
  obtain ⟨p', hp', ec'⟩ := C121_bspline h' h1 h2
  refine ⟨p, hp, ?_⟩
  rw [hp']
  congr 1
  apply point_ext
  intro c
  rw [ec', splineCoord_moved hj, coord_add, coord_mul, ec]

/-- At the end of the domain only the last control point has an effect. -/
theorem C153_repaired_end (h : BSpline.new knots ps = .ok b) {j : ℕ} (v : P)
    (h' : BSpline.new knots (movedPoint ps j v) = .ok b') :
    ∃ p, b.evalFixed (knotAt knots C) = .ok p ∧
      b'.evalFixed (knotAt knots C) = .ok (if j + 1 = C then p + v else p) := by
  have v1 := ((new_ok_iff _ _ _).1 h).1.1
  refine ⟨_, C121_bspline_end h, ?_⟩
  rw [C121_bspline_end h', movedPoint]
  simp only
  by_cases hj : j + 1 = C
  · rw [if_pos hj, if_pos (by omega)]
  · rw [if_neg hj, if_neg (by omega)]

/-- **C153** for the repaired program: a point moves by at most `|v|`, not at all outside the `D + 1` spans
after knot `j`, and between two parameters at least as far as at one of them. -/
theorem C153_repaired_rise_fall (h : BSpline.new knots ps = .ok b) {j : ℕ} (hj : j < C) (v : P)
    (h' : BSpline.new knots (movedPoint ps j v) = .ok b') {r s t : ℝ} (h1 : knotAt knots D ≤ r) (hrs : r ≤ s)
    (hst : s ≤ t) (h2 : t < knotAt knots C) {pr ps' pt qr qs qt : P} (er : b.evalFixed r = .ok pr)
    (es : b.evalFixed s = .ok ps') (et : b.evalFixed t = .ok pt) (fr : b'.evalFixed r = .ok qr)
    (fs : b'.evalFixed s = .ok qs) (ft : b'.evalFixed t = .ok qt) :
    min (pdist pr qr) (pdist pt qt) ≤ pdist ps' qs ∧ pdist ps' qs ≤ pdist v Point.default ∧
    (s < knotAt knots j ∨ knotAt knots (j + D + 1) ≤ s → qs = ps') := by
  have vs := ((new_ok_iff _ _ _).1 h).1
  obtain ⟨v1, v2, v3⟩ := id vs
  have hm := fun i j (hij : i ≤ j) (hj : j < K) => mono_knotAt v3 hij hj
  have nn := fun x => coxDeBoor_nonneg (t := x) hm D j (by omega)
  have mv : ∀ x p q, knotAt knots D ≤ x → x < knotAt knots C → b.evalFixed x = .ok p →
      b'.evalFixed x = .ok q → q = p + v * coxDeBoor (knotAt knots) D j x := by
    intro x p q x1 x2 hp hq
    obtain ⟨p0, e1, e2⟩ := C153_repaired h hj v h' x1 x2
    rw [hp] at e1
    rw [hq] at e2
    cases e1
    cases e2
    rfl
  have ms := mv s ps' qs (h1.trans hrs) (hst.trans_lt h2) es fs
  have ds := pdist_moved (nn s) ms
  have n0 := pdist_nonneg v (Point.default : P)
  refine ⟨?_, ?_, fun hs => ?_⟩
  · rw [pdist_moved (nn r) (mv r pr qr h1 ((hrs.trans hst).trans_lt h2) er fr),
      pdist_moved (nn t) (mv t pt qt (h1.trans (hrs.trans hst)) h2 et ft), ds, ← min_mul_of_nonneg _ _ n0]
    exact mul_le_mul_of_nonneg_right (basis_unimodal hm v2 hj hrs hst) n0
  · have one := basis_sum_one hm v2 v1 (h1.trans hrs) (hst.trans_lt h2)
    have le : coxDeBoor (knotAt knots) D j s ≤ 1 := by
      rw [← one]
      exact Finset.single_le_sum (f := fun i => coxDeBoor (knotAt knots) D i s)
        (fun i hi => coxDeBoor_nonneg hm D i (by have := Finset.mem_range.1 hi; omega))
        (Finset.mem_range.2 hj)
    rw [ds]
    exact mul_le_of_le_one_left n0 le
  · rw [ms, coxDeBoor_support hm D j (by omega) fun hx => by rcases hs with hs | hs <;> linarith [hx.1, hx.2]]
    apply point_ext
    intro c
    rw [coord_add, coord_mul]
    ring

/-- **C153** for the repaired program: inside the `D + 1` spans every point moves. -/
theorem C153_repaired_moves (h : BSpline.new knots ps = .ok b) {j : ℕ} (hj : j < C) {v : P}
    (hv : v ≠ Point.default) (h' : BSpline.new knots (movedPoint ps j v) = .ok b') {t : ℝ}
    (h1 : knotAt knots D ≤ t) (h2 : t < knotAt knots C) (j1 : knotAt knots j < t)
    (j2 : t < knotAt knots (j + D + 1)) {p q : P} (hp : b.evalFixed t = .ok p) (hq : b'.evalFixed t = .ok q) :
    p ≠ q := by
  have vs := ((new_ok_iff _ _ _).1 h).1
  obtain ⟨v1, v2, v3⟩ := id vs
  have hm := fun i j (hij : i ≤ j) (hj : j < K) => mono_knotAt v3 hij hj
  have pos := coxDeBoor_pos hm D j t (by omega) j1 j2
  obtain ⟨p0, e1, e2⟩ := C153_repaired h hj v h' h1 h2
  rw [hp] at e1
  rw [hq] at e2
  cases e1
  cases e2
  intro e
  refine hv (point_ext fun c => ?_)
  have : coord p c = coord (p + v * coxDeBoor (knotAt knots) D j t) c := by rw [← e]
  rw [coord_add, coord_mul] at this
  rw [coord_default]
  have z : coord v c * coxDeBoor (knotAt knots) D j t = 0 := by linarith
  exact (mul_eq_zero.1 z).resolve_right pos.ne'

/-- **C153** with the calls of this version: the points of the detour of C136. -/
theorem C153_detour (vs : ValidSpline C D knots) (hc : FrontClamped D knots ∨ BackClamped D knots)
    (ps : Arr P C) {j : ℕ} (hj : j < C) (v : P) {t : ℝ} {k : ℕ}
    (hDk : D ≤ k) (hkC : k < C) (k1 : knotAt knots k ≤ t) (k2 : t < knotAt knots (k + 1))
    (heps : ∀ i : Fin K, knots i < t → eps ≤ t - knots i) :
    ∃ (b b' : BSpline ℝ P K C D) (p q : P),
      BSpline.new knots (fun i => ps i - ps ⟨k, hkC⟩) = .ok b ∧ b.eval t = .ok p ∧
      BSpline.new knots (fun i => movedPoint ps j v i - movedPoint ps j v ⟨k, hkC⟩) = .ok b' ∧
      b'.eval t = .ok q ∧
      q + movedPoint ps j v ⟨k, hkC⟩ = p + ps ⟨k, hkC⟩ + v * coxDeBoor (knotAt knots) D j t := by
  obtain ⟨b, p, hb, hp, hpc⟩ := C136_bspline vs hc ps hDk hkC k1 k2 heps
  obtain ⟨b', q, hb', hq, hqc⟩ := C136_bspline vs hc (movedPoint ps j v) hDk hkC k1 k2 heps
  refine ⟨b, b', p, q, hb, hp, hb', hq, ?_⟩
  apply point_ext
  intro c
  rw [hqc, splineCoord_moved hj, coord_add (p + _), hpc, coord_mul]

/-- **C153**, what holds of `eval` itself: the same, without effect in the first span. -/
theorem C153_partial (h : BSpline.new knots ps = .ok b) (hc : FrontClamped D knots ∨ BackClamped D knots)
    {j : ℕ} (hj : j < C) (v : P) (h' : BSpline.new knots (movedPoint ps j v) = .ok b') {t : ℝ} {k : ℕ}
    (hDk : D ≤ k) (hkC : k < C) (k1 : knotAt knots k ≤ t) (k2 : t < knotAt knots (k + 1))
    (heps : ∀ i : Fin K, knots i < t → eps ≤ t - knots i) :
    ∃ p, b.eval t = .ok p ∧
      b'.eval t = .ok (p + v * (if j = k then 0 else coxDeBoor (knotAt knots) D j t)) := by
  obtain ⟨p, hp, ec⟩ := C48_partial h hc hDk hkC k1 k2 heps
  obtain ⟨q, hq, ec'⟩ := C48_partial h' hc hDk hkC k1 k2 heps
  refine ⟨p, hp, ?_⟩
  rw [hq]
  congr 1
  apply point_ext
  intro c
  rw [ec', splineCoord_moved hj, coord_add, coord_mul, ec, movedPoint]
  simp only
  by_cases hjk : j = k
  · subst hjk
    rw [if_pos rfl, if_pos rfl, coord_add]
    ring
  · rw [if_neg fun e => hjk e.symm, if_neg hjk]
    ring

/-- **C153** of `eval` itself: between two parameters a point moves at least as far as at one of them. -/
theorem C153_rise_fall (h : BSpline.new knots ps = .ok b) (hc : FrontClamped D knots ∨ BackClamped D knots)
    {j : ℕ} (hj : j < C) (v : P) (h' : BSpline.new knots (movedPoint ps j v) = .ok b') {r s t : ℝ}
    (h1 : knotAt knots D ≤ r) (hrs : r ≤ s) (hst : s ≤ t) (h2 : t < knotAt knots C)
    (heps : ∀ x ∈ ({r, s, t} : Set ℝ), ∀ i : Fin K, knots i < x → eps ≤ x - knots i) :
    ∃ pr ps' pt qr qs qt, b.eval r = .ok pr ∧ b.eval s = .ok ps' ∧ b.eval t = .ok pt ∧
      b'.eval r = .ok qr ∧ b'.eval s = .ok qs ∧ b'.eval t = .ok qt ∧
      min (pdist pr qr) (pdist pt qt) ≤ pdist ps' qs := by
  have vs := ((new_ok_iff _ _ _).1 h).1
  obtain ⟨v1, v2, v3⟩ := id vs
  have hm := fun i j (hij : i ≤ j) (hj : j < K) => mono_knotAt v3 hij hj
  have mv : ∀ x ∈ ({r, s, t} : Set ℝ), knotAt knots D ≤ x → x < knotAt knots C → ∃ p q, b.eval x = .ok p ∧
      b'.eval x = .ok q ∧ pdist p q = evalInfluence (knotAt knots) D j x * pdist v Point.default := by
    intro x hx x1 x2
    obtain ⟨k, hDk, hkC, k1, k2⟩ := exists_span vs x1 x2
    obtain ⟨p, hp, hq⟩ := C153_partial h hc hj v h' hDk hkC k1 k2 (heps x hx)
    have e : (if j = k then 0 else coxDeBoor (knotAt knots) D j x) = evalInfluence (knotAt knots) D j x := by
      unfold evalInfluence
      by_cases hjk : j = k
      · subst hjk
        rw [if_pos rfl, if_pos ⟨k1, k2⟩]
      · rw [if_neg hjk, if_neg]
        rintro ⟨j1, j2⟩
        rcases Nat.lt_or_gt_of_ne hjk with lt | gt
        · have := hm (j + 1) k lt (by omega)
          linarith
        · have := hm (k + 1) j gt (by omega)
          linarith
    rw [e] at hq
    exact ⟨p, _, hp, hq, pdist_moved (evalInfluence_le hm v2 hj x).1 rfl⟩
  obtain ⟨pr, qr, r1, r2, r3⟩ := mv r (by simp) h1 ((hrs.trans hst).trans_lt h2)
  obtain ⟨ps', qs, s1, s2, s3⟩ := mv s (by simp) (h1.trans hrs) (hst.trans_lt h2)
  obtain ⟨pt, qt, t1, t2, t3⟩ := mv t (by simp) (h1.trans (hrs.trans hst)) h2
  refine ⟨pr, ps', pt, qr, qs, qt, r1, s1, t1, r2, s2, t2, ?_⟩
  have n0 := pdist_nonneg v (Point.default : P)
  rw [r3, s3, t3, ← min_mul_of_nonneg _ _ n0]
  exact mul_le_mul_of_nonneg_right (evalInfluence_unimodal hm v2 hj hrs hst) n0

end Splines

/-- **C153** is false of the code: moving control point 2 does not move the point at 1/2, although basis
function 2 is 1/8 there. -/
theorem C153_false (ps : Arr (PointN ℝ 1) 4) (v : PointN ℝ 1) :
    ∃ (b b' : BSpline ℝ (PointN ℝ 1) 7 4 2) (p : PointN ℝ 1),
      BSpline.new ![0, 0, 0, 1, 2, 2, 2] ps = .ok b ∧
      BSpline.new ![0, 0, 0, 1, 2, 2, 2] (movedPoint ps 2 v) = .ok b' ∧
      b.eval (1 / 2 : ℝ) = .ok p ∧ b'.eval (1 / 2 : ℝ) = .ok p ∧
      coxDeBoor (knotAt (![0, 0, 0, 1, 2, 2, 2] : Fin 7 → ℝ)) 2 2 (1 / 2) = 1 / 8 := by
  obtain ⟨b, hb⟩ := (C43_accepts (D := 2) _ ps).2 valid_0001222
  obtain ⟨b', hb'⟩ := (C43_accepts (D := 2) _ (movedPoint ps 2 v)).2 valid_0001222
  have e4 := eps_le_quarter
  obtain ⟨p, hp, hq⟩ := C153_partial hb (.inl front_0001222) (j := 2) (by norm_num) v hb' (t := 1 / 2)
    (k := 2) le_rfl (by norm_num) (by simp [knotAt]) (by simp [knotAt]; norm_num) fun i => by
      fin_cases i <;> simp <;> intros <;> linarith
  refine ⟨b, b', p, hb, hb', hp, ?_, by norm_num [coxDeBoor, knotAt]⟩
  rw [hq, if_pos rfl]
  congr 1
  apply point_ext
  intro c
  rw [coord_add, coord_mul]
  ring

/-- The hypotheses are met: moving control point 1 by 8 moves the point at 1/2 by 5, in `eval` too. -/
example (ps : Arr (PointN ℝ 1) 4) : ∃ (b b' : BSpline ℝ (PointN ℝ 1) 7 4 2) (p q : PointN ℝ 1),
    BSpline.new ![0, 0, 0, 1, 2, 2, 2] ps = .ok b ∧
    BSpline.new ![0, 0, 0, 1, 2, 2, 2] (movedPoint ps 1 (p1 8)) = .ok b' ∧
    b.eval (1 / 2 : ℝ) = .ok p ∧ b'.eval (1 / 2 : ℝ) = .ok q ∧ coord q 0 = coord p 0 + 5 := by
  obtain ⟨b, hb⟩ := (C43_accepts (D := 2) _ ps).2 valid_0001222
  obtain ⟨b', hb'⟩ := (C43_accepts (D := 2) _ (movedPoint ps 1 (p1 8))).2 valid_0001222
  have e4 := eps_le_quarter
  obtain ⟨p, hp, hq⟩ := C153_partial hb (.inl front_0001222) (j := 1) (by norm_num) (p1 8) hb' (t := 1 / 2)
    (k := 2) le_rfl (by norm_num) (by simp [knotAt]) (by simp [knotAt]; norm_num) fun i => by
      fin_cases i <;> simp <;> intros <;> linarith
  refine ⟨b, b', p, _, hb, hb', hp, hq, ?_⟩
  rw [coord_add, coord_mul, coord_p1]
  norm_num [coxDeBoor, knotAt]

/-- Three parameters for `C153_rise_fall`: 1/2, 1 and 3/2. -/
example (ps : Arr (PointN ℝ 1) 4) (v : PointN ℝ 1) : ∃ (b b' : BSpline ℝ (PointN ℝ 1) 7 4 2)
    (pr ps' pt qr qs qt : PointN ℝ 1), BSpline.new ![0, 0, 0, 1, 2, 2, 2] ps = .ok b ∧
      BSpline.new ![0, 0, 0, 1, 2, 2, 2] (movedPoint ps 1 v) = .ok b' ∧
      b.eval (1 / 2 : ℝ) = .ok pr ∧ b.eval (1 : ℝ) = .ok ps' ∧ b.eval (3 / 2 : ℝ) = .ok pt ∧
      b'.eval (1 / 2 : ℝ) = .ok qr ∧ b'.eval (1 : ℝ) = .ok qs ∧ b'.eval (3 / 2 : ℝ) = .ok qt ∧
      min (pdist pr qr) (pdist pt qt) ≤ pdist ps' qs := by
  obtain ⟨b, hb⟩ := (C43_accepts (D := 2) _ ps).2 valid_0001222
  obtain ⟨b', hb'⟩ := (C43_accepts (D := 2) _ (movedPoint ps 1 v)).2 valid_0001222
  have e4 := eps_le_quarter
  obtain ⟨pr, ps', pt, qr, qs, qt, h⟩ := C153_rise_fall hb (.inl front_0001222) (j := 1) (by norm_num) v hb'
    (r := 1 / 2) (s := 1) (t := 3 / 2) (by simp [knotAt]) (by norm_num) (by norm_num)
    (by norm_num [knotAt]) (by
      intro x hx i
      simp only [Set.mem_insert_iff, Set.mem_singleton_iff] at hx
      rcases hx with rfl | rfl | rfl <;> fin_cases i <;> simp <;> intros <;> linarith)
  exact ⟨b, b', pr, ps', pt, qr, qs, qt, hb, hb', h⟩

end Stroke
