import Verif.Props.FloatMonotone
import Verif.Props.FloatBSplineError
import Verif.Props.FloatEndpoints
import Verif.Props.AnyMaps

/-!
# Evaluation keeps the order of control points in floating point (C111)

If the coordinates of one curve are nowhere larger than those of another, then neither are the
computed points, with all rounding errors, overflow and infinities: the forms that multiply control
points by non-negative weights and add up have no subtraction, and rounding is monotone. The forms
`a + (b - a) * t` do not have this property.
-/

set_option linter.unusedSectionVars false

namespace Stroke
namespace Fl

variable {F : FloatFormat}


/-- Multiplication by a weight that is not negative keeps the order. -/
theorem Ord.mul {x y w : Fl F} (h : Ord x y) (hw : Ord (lit 0) w) : Ord (x * w) (y * w) := by
  rw [mul_comm' x, mul_comm' y]
  exact mul_ord hw h

/-- Addition keeps the order. -/
theorem Ord.add {a b c d : Fl F} (h : Ord a b) (h' : Ord c d) : Ord (a + c) (b + d) := by
  show Ord (Fl.add a c) (Fl.add b d)
  cases a with
  | nan => exact nan_ord _
  | inf sa =>
    cases b with
    | nan => exact ord_nan _
    | inf sb =>
      cases c with
      | nan => exact nan_ord _
      | inf sc =>
        cases d with
        | nan => cases sb <;> exact ord_nan _
        | inf sd =>
          cases sa <;> cases sb <;> cases sc <;> cases sd <;>
            first
              | exact ord_refl _
              | exact nan_ord _
              | exact ord_nan _
              | exact negInf_ord _
              | exact ord_posInf _
              | exact absurd h not_posInf_ord_negInf
              | exact absurd h' not_posInf_ord_negInf
        | fin r hr =>
          cases sa <;> cases sb <;> cases sc <;>
            first
              | exact ord_refl _
              | exact nan_ord _
              | exact negInf_ord _
              | exact ord_posInf _
              | exact absurd h not_posInf_ord_negInf
              | exact absurd h' not_posInf_ord_fin
      | fin r hr =>
        cases d with
        | nan => cases sb <;> exact ord_nan _
        | inf sd =>
          cases sa <;> cases sb <;> cases sd <;>
            first
              | exact ord_refl _
              | exact ord_nan _
              | exact negInf_ord _
              | exact ord_posInf _
              | exact absurd h not_posInf_ord_negInf
              | exact absurd h' not_fin_ord_negInf
        | fin s hs => exact h
    | fin r hr =>
      cases sa
      · exact absurd h not_posInf_ord_fin
      · cases c with
        | nan => exact nan_ord _
        | inf sc =>
          cases sc
          · exact nan_ord _
          · exact negInf_ord _
        | fin s hs => exact negInf_ord _
  | fin a ha =>
    cases b with
    | nan => exact ord_nan _
    | inf sb =>
      cases sb
      · cases d with
        | nan => exact ord_nan _
        | inf sd =>
          cases sd
          · exact ord_posInf _
          · exact ord_nan _
        | fin s hs => exact ord_posInf _
      · exact absurd h not_fin_ord_negInf
    | fin b hb =>
      cases c with
      | nan => exact nan_ord _
      | inf sc =>
        cases sc
        · cases d with
          | nan => exact ord_nan _
          | inf sd =>
            cases sd
            · exact ord_refl _
            · exact absurd h' not_posInf_ord_negInf
          | fin s hs => exact absurd h' not_posInf_ord_fin
        · exact negInf_ord _
      | fin c hc =>
        cases d with
        | nan => exact ord_nan _
        | inf sd =>
          cases sd
          · exact ord_posInf _
          · exact absurd h' not_fin_ord_negInf
        | fin d hd => exact round_ord (add_le_add (ord_fin.1 h) (ord_fin.1 h'))

/-- Products of values that are not negative are not negative. -/
theorem nonneg_mul {x y : Fl F} (hx : Ord (lit 0) x) (hy : Ord (lit 0) y) :
    Ord (lit 0) (x * y) := by
  rw [lit_zero] at *
  show Ord (fin 0 F.zero_ok) (Fl.mul x y)
  cases x with
  | nan => exact ord_nan _
  | inf s =>
    cases s
    · cases y with
      | nan => exact ord_nan _
      | inf s' =>
        cases s'
        · exact ord_posInf _
        · exact absurd hy not_fin_ord_negInf
      | fin r hr =>
        rcases (ord_fin.1 hy).eq_or_lt with r0 | r0
        · rw [(inf_mul_fin (F := F) false).2.2 r0.symm]; exact ord_nan _
        · rw [(inf_mul_fin (F := F) false).1 r0]; exact ord_posInf _
    · exact absurd hx not_fin_ord_negInf
  | fin a ha =>
    cases y with
    | nan => exact ord_nan _
    | inf s =>
      cases s
      · rcases (ord_fin.1 hx).eq_or_lt with r0 | r0
        · rw [(fin_mul_inf (F := F) false).2.2 r0.symm]; exact ord_nan _
        · rw [(fin_mul_inf (F := F) false).1 r0]; exact ord_posInf _
      · exact absurd hy not_fin_ord_negInf
    | fin c hc =>
      rw [← F.round_of_mem F.zero_ok]
      exact round_ord (mul_nonneg (ord_fin.1 hx) (ord_fin.1 hy))

/-- Rounded literals are not negative. -/
theorem nonneg_lit {q : ℚ} (hq : 0 ≤ q) : Ord (lit 0 : Fl F) (lit q) := by
  show Ord (F.round ((0 : ℚ) : ℝ)) (F.round (q : ℝ))
  exact round_ord (by exact_mod_cast hq)

/-- `-t + 1` is not negative for `t ≤ 1`. -/
theorem nonneg_one_sub {t : Fl F} (ht : Ord t (lit 1)) : Ord (lit 0) (-t + lit 1) := by
  have h1 := (neg_ord ht).add (ord_refl (lit 1))
  have e : -(lit 1 : Fl F) + lit 1 = lit 0 := by
    rw [lit_one, fin_neg, fin_add, show (-1 : ℝ) + 1 = 0 by norm_num, F.round_of_mem F.zero_ok,
      lit_zero]
  rwa [e] at h1

theorem nonneg_one_sub' {t : Fl F} (ht : Ord t (lit 1)) : Ord (lit 0) (lit 1 - t) := by
  have h1 := (ord_refl (lit 1)).add (neg_ord ht)
  have e : (lit 1 : Fl F) + -lit 1 = lit 0 := by
    rw [lit_one, fin_neg, fin_add, show (1 : ℝ) + -1 = 0 by norm_num, F.round_of_mem F.zero_ok,
      lit_zero]
  rwa [e] at h1

end Fl

open Fl

variable {F : FloatFormat} {n : ℕ}

/-- No coordinate of `p` is larger than that of `q` (NaN is not larger than anything). -/
def Dominated (p q : PointN (Fl F) n) : Prop :=
  ∀ i, Scalar.lt (q.coords i) (p.coords i) = false

/-- The parameter is neither less than 0 nor greater than 1. -/
def NotOutside (t : Fl F) : Prop :=
  Scalar.lt t (lit 0) = false ∧ Scalar.lt (lit 1 : Fl F) t = false

theorem dominated_iff {p q : PointN (Fl F) n} :
    Dominated p q ↔ ∀ i, Ord (p.coords i) (q.coords i) :=
  forall_congr' fun _ => ord_iff.symm

theorem NotOutside.nonneg {t : Fl F} (h : NotOutside t) : Ord (lit 0) t := ord_iff.2 h.1
theorem NotOutside.le_one {t : Fl F} (h : NotOutside t) : Ord t (lit 1) := ord_iff.2 h.2

theorem Dominated.refl (p : PointN (Fl F) n) : Dominated p p :=
  dominated_iff.2 fun _ => ord_refl _

theorem Dominated.add {p q p' q' : PointN (Fl F) n} (h : Dominated p q) (h' : Dominated p' q') :
    Dominated (p + p') (q + q') :=
  dominated_iff.2 fun i => (dominated_iff.1 h i).add (dominated_iff.1 h' i)

theorem Dominated.mul {p q : PointN (Fl F) n} {w : Fl F} (h : Dominated p q) (hw : Ord (lit 0) w) :
    Dominated (p * w) (q * w) :=
  dominated_iff.2 fun i => (dominated_iff.1 h i).mul hw

/-! ### Bézier curves -/

/-- **C111**, `QuadraticBezier::eval`. -/
theorem C111_quadratic (q q' : QuadraticBezier (PointN (Fl F) n)) {t : Fl F} (ht : NotOutside t)
    (h1 : Dominated q.start q'.start) (h2 : Dominated q.ctrl q'.ctrl)
    (h3 : Dominated q.end_ q'.end_) : Dominated (q.eval t) (q'.eval t) := by
  have t0 := ht.nonneg
  have t1 := nonneg_one_sub ht.le_one
  exact ((h1.mul (nonneg_mul t1 t1)).add (((h2.mul (nonneg_lit (by norm_num))).mul t1).mul t0)).add
    (h3.mul (nonneg_mul t0 t0))

/-- **C111**, `CubicBezier::eval`. -/
theorem C111_cubic (c c' : CubicBezier (PointN (Fl F) n)) {t : Fl F} (ht : NotOutside t)
    (h1 : Dominated c.start c'.start) (h2 : Dominated c.ctrl1 c'.ctrl1)
    (h3 : Dominated c.ctrl2 c'.ctrl2) (h4 : Dominated c.end_ c'.end_) :
    Dominated (c.eval t) (c'.eval t) := by
  have t0 := ht.nonneg
  have t1 := nonneg_one_sub ht.le_one
  have l3 : Ord (lit 0 : Fl F) (lit 3) := nonneg_lit (by norm_num)
  exact (((h1.mul (nonneg_mul (nonneg_mul t1 t1) t1)).add
    (h2.mul (nonneg_mul (nonneg_mul (nonneg_mul t0 t1) t1) l3))).add
    (h3.mul (nonneg_mul (nonneg_mul (nonneg_mul t0 t0) t1) l3))).add
    (h4.mul (nonneg_mul (nonneg_mul t0 t0) t0))

theorem Dominated.cas {x y : ℕ → PointN (Fl F) n} {t : Fl F} (ht : NotOutside t)
    (h : ∀ k, Dominated (x k) (y k)) (m : ℕ) : ∀ j, Dominated (cas x t m j) (cas y t m j) := by
  induction m with
  | zero => intro j; exact h j
  | succ m ih =>
    intro j
    exact ((ih j).mul (nonneg_one_sub ht.le_one)).add ((ih (j + 1)).mul ht.nonneg)

theorem Dominated.extend {N : ℕ} {x y : Arr (PointN (Fl F) n) N}
    (h : ∀ k, Dominated (x k) (y k)) (k : ℕ) : Dominated (extend x k) (extend y k) := by
  unfold Stroke.extend
  split_ifs with hk
  · exact h _
  · exact Dominated.refl _

/-- **C111**, the generic `Bezier`, any number of control points: `eval`, and all control points of
both halves of `split`. -/
theorem C111_bezier {N : ℕ} (b b' : Bezier (PointN (Fl F) n) N) {t : Fl F} (ht : NotOutside t)
    (h : ∀ k, Dominated (b.control_points k) (b'.control_points k)) :
    (∀ p p', b.eval t = some p → b'.eval t = some p' → Dominated p p') ∧
    ∀ l r l' r', b.split t = some (l, r) → b'.split t = some (l', r') →
      ∀ k, Dominated (l.control_points k) (l'.control_points k) ∧
        Dominated (r.control_points k) (r'.control_points k) := by
  have key := fun m j => Dominated.cas ht (Dominated.extend h) m j
  constructor
  · intro p p' e e'
    rcases Nat.eq_zero_or_pos N with hN | hN
    · subst hN
      rw [Bezier.eval] at e
      simp [forRange_empty, Arr.get?] at e
    · rw [bezier_eval_cas b hN, Option.some.injEq] at e
      rw [bezier_eval_cas b' hN, Option.some.injEq] at e'
      rw [← e, ← e']
      exact key _ _
  · intro l r l' r' e e' k
    rw [bezier_split_cas, Option.some.injEq, Prod.mk.injEq] at e e'
    rw [← e.1, ← e.2, ← e'.1, ← e'.2]
    exact ⟨key _ _, key _ _⟩

/-! ### B-splines -/

theorem Dominated.dbg {x y : ℕ → PointN (Fl F) n} {a : ℕ → ℕ → Fl F} {m : ℕ}
    (ha : ∀ r j, 1 ≤ r → r ≤ j → j ≤ m → NotOutside (a r j))
    (h : ∀ k, Dominated (x k) (y k)) (r : ℕ) :
    ∀ j ≤ m, Dominated (dbg a x r j) (dbg a y r j) := by
  induction r with
  | zero => intro j _; exact h j
  | succ r ih =>
    intro j hj
    unfold Stroke.dbg
    split_ifs with hrj
    · have := ha (r + 1) j (by omega) hrj hj
      exact ((ih (j - 1) (by omega)).mul (nonneg_one_sub' this.le_one)).add
        ((ih j hj).mul this.nonneg)
    · exact ih j hj

theorem knotDomain_clamped_float {K C D : ℕ} {P : Type} [Point (Fl F) P] {knots : Arr (Fl F) K}
    {ps : Arr P C} {b : BSpline (Fl F) P K C D} (h : BSpline.new knots ps = .ok b)
    (hk : FiniteKnots knots) (hf : ClampedFront D knots) (hb : ClampedBack D knots) (hD : D < K)
    (hC : C < K) : b.knotDomain = some (knots ⟨D, hD⟩, knots ⟨C, hC⟩) := by
  obtain ⟨h1, h2, h3, hbeq⟩ := (new_generic _ _ _).1 h
  rw [frontB_true hk hf, backB_true hk hb] at hbeq
  have hkn : b.knots = knots := by rw [hbeq]
  have hkind : b.knot_kind = .Clamped := by rw [hbeq]; rfl
  rw [BSpline.knotDomain, hkind]
  simp only [BSpline.knotDomainClamped]
  rw [usub_le (by omega)]
  simp only [Option.bind_eq_bind, Option.bind_some]
  rw [usub_le (by omega), hkn, Arr.get?_lt _ (show D < K by omega)]
  simp only [Option.bind_some]
  rw [Arr.get?_lt _ (show K - 1 - D < K by omega)]
  simp only [Option.bind_some, show K - 1 - D = C by omega]
  rfl

/-- An interpolation factor is between 0 and 1 as soon as `t` lies below the right end of the span
that is used. -/
theorem alpha_unit {K D : ℕ} {knots : Arr (Fl F) K} (hk : FiniteKnots knots)
    (hm : ∀ i j, i ≤ j → j < K → knotAt (fun i => (knots i).toReal) i
      ≤ knotAt (fun i => (knots i).toReal) j)
    (hspan : ∀ i j : Fin K, (knots j).toReal - (knots i).toReal ≤ F.max)
    {t : ℝ} (ht : t ∈ F.grid ∧ |t| ≤ F.max) {k r j : ℕ} (hDk : D ≤ k) (hK : k + D < K)
    (hr1 : 1 ≤ r) (hr : r ≤ j) (hj : j ≤ D)
    (h0 : knotAt (fun i => (knots i).toReal) 0 ≤ t)
    (h2 : t < knotAt (fun i => (knots i).toReal) (k + 1)) :
    ∃ α hα, BSpline.alpha (D := D) knots (fin t ht) k r j = .ok (fin α hα) ∧ 0 ≤ α ∧ α ≤ 1 := by
  set U := knotAt (fun i => (knots i).toReal) with hU
  have hep := F.epsilon_pos
  have hi0 : 0 < K := by omega
  have hi1 : j + k - D < K := by omega
  have hi2 : j + 1 + k - r < K := by omega
  obtain ⟨a, ha, ea⟩ := isFinite_iff.1 (hk ⟨j + k - D, hi1⟩)
  obtain ⟨c, hc, ec⟩ := isFinite_iff.1 (hk ⟨j + 1 + k - r, hi2⟩)
  have Ua : U (j + k - D) = a := by rw [hU, knotAt_lt _ hi1, ea, toReal_fin]
  have Uc : U (j + 1 + k - r) = c := by rw [hU, knotAt_lt _ hi2, ec, toReal_fin]
  have l0 : U 0 ≤ a := by rw [← Ua]; exact hm _ _ (by omega) (by omega)
  have l2 : U (k + 1) ≤ c := by rw [← Uc]; exact hm _ _ (by omega) (by omega)
  have lac : a ≤ c := by rw [← Ua, ← Uc]; exact hm _ _ (by omega) (by omega)
  have lc : c - a ≤ F.max := by
    have := hspan ⟨j + k - D, hi1⟩ ⟨j + 1 + k - r, hi2⟩
    rwa [ea, ec] at this
  have la : a - U 0 ≤ F.max := by
    have := hspan ⟨0, hi0⟩ ⟨j + k - D, hi1⟩
    rw [ea, toReal_fin] at this
    rwa [hU, knotAt_lt _ hi0]
  set x := t - a with hx
  set y := c - a with hy
  have xy : x ≤ y := by linarith
  have y0 : 0 ≤ y := by linarith
  have nd : F.rnd x ≤ F.rnd y := F.rnd_mono xy
  have halpha : BSpline.alpha (D := D) knots (fin t ht) k r j =
      (let α : Fl F := if Scalar.lt (F.round x) (fin F.epsilon F.epsilon_ok) then lit 0
        else if Scalar.lt (Scalar.abs (F.round y)) (fin F.epsilon F.epsilon_ok) then lit 1
        else F.round x / F.round y
       if Scalar.isNaN α then .err .EvaluationAlphaIsNaN else .ok α) := by
    unfold BSpline.alpha
    rw [usub_le (show D ≤ j + k by omega), usub_le (show r ≤ j + 1 + k by omega)]
    simp only [Option.bind_eq_bind, Option.bind_some]
    rw [Arr.get?_lt _ hi1, Arr.get?_lt _ hi2, ea, ec]
    simp only [Outcome.ofOption_some, Outcome.ok_bind, fin_sub, Outcome.pure_eq, epsilon_eq, hx, hy]
  have bx : |x| ≤ F.max := abs_le.2 ⟨by linarith, by linarith⟩
  have byy : |y| ≤ F.max := by rw [abs_of_nonneg y0]; linarith
  rw [F.round_of_le bx, F.round_of_le byy] at halpha
  by_cases c1 : F.rnd x < F.epsilon
  · refine ⟨0, F.zero_ok, ?_, le_rfl, zero_le_one⟩
    rw [halpha]
    simp only [lt_fin.2 c1, if_true, lit_zero]
    rfl
  · have c1' := not_lt.1 c1
    have rn0 : 0 < F.rnd x := by linarith
    have rd0 : 0 < F.rnd y := by linarith
    have q0 : 0 ≤ F.rnd x / F.rnd y := div_nonneg rn0.le rd0.le
    have q1 : F.rnd x / F.rnd y ≤ 1 := (div_le_one rd0).2 nd
    have r0 : 0 ≤ F.rnd (F.rnd x / F.rnd y) := F.rnd_nonneg q0
    have r1 : F.rnd (F.rnd x / F.rnd y) ≤ 1 := by
      have := F.rnd_mono q1
      rwa [F.rnd_of_mem 1 F.one_mem] at this
    have rok : |F.rnd (F.rnd x / F.rnd y)| ≤ F.max := by
      rw [abs_of_nonneg r0]; linarith [F.max_ge]
    refine ⟨_, ⟨F.rnd_mem _, rok⟩, ?_, r0, r1⟩
    rw [halpha]
    obtain ⟨h, e⟩ := abs_fin' (F := F) (a := F.rnd y)
      (ha := ⟨F.rnd_mem y, F.abs_rnd_le F.max_mem byy⟩)
    have n1 : Scalar.lt (fin (F.rnd x) ⟨F.rnd_mem x, F.abs_rnd_le F.max_mem bx⟩ : Fl F)
        (fin F.epsilon F.epsilon_ok) = false := by
      rw [← Bool.not_eq_true, lt_fin]; exact c1
    have n2 : Scalar.lt (fin |F.rnd y| h : Fl F) (fin F.epsilon F.epsilon_ok) = false := by
      rw [← Bool.not_eq_true, lt_fin, abs_of_nonneg rd0.le]; linarith
    rw [e, n1, n2]
    simp only [Bool.false_eq_true, if_false]
    rw [fin_div rd0.ne', F.round_of_rnd_le rok]
    rfl

/-- The order of two splines with the same knots where the span has been found (see
`C111_bspline`). -/
theorem dominated_of_span {K C D : ℕ} {knots : Arr (Fl F) K} {ps ps' : Arr (PointN (Fl F) n) C}
    {b b' : BSpline (Fl F) (PointN (Fl F) n) K C D}
    (h : BSpline.new knots ps = .ok b) (h' : BSpline.new knots ps' = .ok b')
    (hk : FiniteKnots knots)
    (hspan : ∀ i j : Fin K, (knots j).toReal - (knots i).toReal ≤ F.max)
    (hd : ∀ k, Dominated (ps k) (ps' k)) {r : ℝ} (hr : r ∈ F.grid ∧ |r| ≤ F.max)
    {p p' : PointN (Fl F) n} (e : b.eval (fin r hr) = .ok p) (e' : b'.eval (fin r hr) = .ok p')
    {k : ℕ} (hDk : D ≤ k) (hkC : k ≤ C) (ht1 : knotAt (fun i => (knots i).toReal) 0 ≤ r)
    (ht2 : r < knotAt (fun i => (knots i).toReal) (k + 1))
    (e1 : b.eval (fin r hr) = b.deBoorIterative (fin r hr))
    (e2 : b.knotSpanStart (fin r hr) = some (some k)) {hCK : C < K}
    (e3 : Scalar.eq (fin r hr) (b.knots ⟨C, hCK⟩) = false)
    (e1' : b'.eval (fin r hr) = b'.deBoorIterative (fin r hr))
    (e2' : b'.knotSpanStart (fin r hr) = some (some k))
    (e3' : Scalar.eq (fin r hr) (b'.knots ⟨C, hCK⟩) = false) : Dominated p p' := by
  have hm := knots_mono h hk
  obtain ⟨v1, v2, v3, hbeq⟩ := (new_generic _ _ _).1 h
  obtain ⟨w1, w2, w3, hbeq'⟩ := (new_generic _ _ _).1 h'
  have hkn : b.knots = knots := by rw [hbeq]
  have hps : b.control_points = ps := by rw [hbeq]
  have hps' : b'.control_points = ps' := by rw [hbeq']
  have hkn' : b'.knots = knots := by rw [hbeq']
  have hal : ∀ s j, ∃ α : Fl F, 1 ≤ s → s ≤ j → j ≤ D →
      BSpline.alpha (D := D) knots (fin r hr) k s j = .ok α ∧ NotOutside α := by
    intro s j
    by_cases hsj : 1 ≤ s ∧ s ≤ j ∧ j ≤ D
    · obtain ⟨α, hα, a1, a2, a3⟩ := alpha_unit hk hm hspan hr hDk (by omega) hsj.1
        hsj.2.1 hsj.2.2 ht1 ht2
      refine ⟨fin α hα, fun _ _ _ => ⟨a1, ord_iff.1 ?_, ord_iff.1 ?_⟩⟩
      · rw [lit_zero]; exact ord_fin.2 a2
      · rw [lit_one]; exact ord_fin.2 a3
    · exact ⟨nan, fun h1 h2 h3 => absurd ⟨h1, h2, h3⟩ hsj⟩
  choose a ha using hal
  have g := deBoorIterative_gen b v2 (fin r hr) k e3 e2 hDk (by omega) (a := a)
    fun s j h1 h2 h3 => by rw [hkn]; exact (ha s j h1 h2 h3).1
  have g' := deBoorIterative_gen b' v2 (fin r hr) k e3' e2' hDk (by omega) (a := a)
    fun s j h1 h2 h3 => by rw [hkn']; exact (ha s j h1 h2 h3).1
  rw [e1, g, Outcome.ok.injEq] at e
  rw [e1', g', Outcome.ok.injEq] at e'
  rw [← e, ← e']
  refine Dominated.dbg (fun s j h1 h2 h3 => (ha s j h1 h2 h3).2) (fun j => ?_) D D le_rfl
  split_ifs
  · rw [hps, hps']; exact Dominated.extend hd _
  · exact Dominated.refl _

/-- **C111**, clamped `BSpline`s of any degree: two splines with the same knots. -/
theorem C111_bspline {K C D : ℕ} {knots : Arr (Fl F) K} {ps ps' : Arr (PointN (Fl F) n) C}
    {b b' : BSpline (Fl F) (PointN (Fl F) n) K C D}
    (h : BSpline.new knots ps = .ok b) (h' : BSpline.new knots ps' = .ok b')
    (hk : FiniteKnots knots) (hf : ClampedFront D knots) (hb : ClampedBack D knots)
    (hspan : ∀ i j : Fin K, (knots j).toReal - (knots i).toReal ≤ F.max)
    (hd : ∀ k, Dominated (ps k) (ps' k)) {t : Fl F} {p p' : PointN (Fl F) n}
    (e : b.eval t = .ok p) (e' : b'.eval t = .ok p') : Dominated p p' := by
  obtain ⟨v1, v2, v3, hbeq⟩ := (new_generic _ _ _).1 h
  obtain ⟨lo, hi, hdom, -, hout⟩ := C46_float h hk
  have hdom' := knotDomain_clamped_float h hk hf hb (by omega) (by omega)
  rw [hdom, Option.some.injEq, Prod.mk.injEq] at hdom'
  obtain ⟨elo, ehi⟩ := hdom'
  by_cases hin : (Scalar.le lo t && Scalar.le t hi) = true
  swap
  · rw [hout t (by simpa using hin)] at e
    cases e
  rw [Bool.and_eq_true, elo, ehi] at hin
  obtain ⟨x, hx, ex⟩ := isFinite_iff.1 (hk ⟨D, by omega⟩)
  obtain ⟨y, hy, ey⟩ := isFinite_iff.1 (hk ⟨C, by omega⟩)
  have kD : knotAt (fun i => (knots i).toReal) D = x := by
    rw [knotAt_lt _ (show D < K by omega), ex, toReal_fin]
  have kC : knotAt (fun i => (knots i).toReal) C = y := by
    rw [knotAt_lt _ (show C < K by omega), ey, toReal_fin]
  rw [ex, ey] at hin
  obtain ⟨r, hr, rfl⟩ : ∃ r hr, t = fin r hr := by
    cases t with
    | nan => exact absurd hin.1 Bool.false_ne_true
    | inf s =>
      cases s
      · exact absurd hin.2 Bool.false_ne_true
      · exact absurd hin.1 Bool.false_ne_true
    | fin r hr => exact ⟨r, hr, rfl⟩
  rw [le_fin, le_fin] at hin
  rcases hin.2.eq_or_lt with ry | ry
  · -- the end of the domain
    have et : fin r hr = knots ⟨C, by omega⟩ := by rw [ey]; exact fin_congr ry
    rw [et, C49_float_end h hk (by omega) (by omega), Outcome.ok.injEq] at e
    rw [et, C49_float_end h' hk (by omega) (by omega), Outcome.ok.injEq] at e'
    rw [← e, ← e']
    exact hd _
  · have ec : C - 1 + 1 = C := by omega
    obtain ⟨k, -, hDk, hkC, ht1, ht2⟩ := spanLoop_spec (knots := fun i => (knots i).toReal)
      ((anyDecrease_finiteKnots hk).1 v3) r _ D (C - 1) le_rfl (by omega) (by rw [kD]; exact hin.1)
      (by rw [ec, kC]; exact ry) (by omega)
    obtain ⟨e1, e2, hCK, e3⟩ := eval_float_span h hk hf hb hr hDk (by omega) ht1 ht2
    obtain ⟨e1', e2', hCK', e3'⟩ := eval_float_span h' hk hf hb hr hDk (by omega) ht1 ht2
    exact dominated_of_span h h' hk hspan hd hr e e' hDk (by omega)
      ((knots_mono h hk 0 D (by omega) (by omega)).trans (by rw [kD]; exact hin.1)) ht2 e1 e2 e3 e1' e2' e3'

/-! ### One coordinate -/

theorem axis_coord (i : Fin n) (p : PointN (Fl F) n) :
    Point.axis p (i : ℕ) = some (p.coords i) := by
  show (if (i : ℕ) ≤ n then p.coords.get? i else none) = _
  rw [if_pos i.2.le, Arr.get?_lt _ i.2]

/-- **C111**, `QuadraticBezier::axis`. -/
theorem C111_quadratic_axis (q q' : QuadraticBezier (PointN (Fl F) n)) {t : Fl F}
    (ht : NotOutside t) (h1 : Dominated q.start q'.start) (h2 : Dominated q.ctrl q'.ctrl)
    (h3 : Dominated q.end_ q'.end_) (i : Fin n) :
    ∃ v v', q.axis t i = some v ∧ q'.axis t i = some v' ∧ Scalar.lt v' v = false := by
  have ax : ∀ p : PointN (Fl F) n, Point.axis p (i : ℕ) = some (p.coords i) := axis_coord i
  refine ⟨(q.eval t).coords i, (q'.eval t).coords i, ?_, ?_, ?_⟩
  · rw [QuadraticBezier.axis, ax, ax, ax]; rfl
  · rw [QuadraticBezier.axis, ax, ax, ax]; rfl
  · exact C111_quadratic q q' ht h1 h2 h3 i

/-- **C111**, `CubicBezier::axis` (a different formula from `eval`). -/
theorem C111_cubic_axis (c c' : CubicBezier (PointN (Fl F) n)) {t : Fl F} (ht : NotOutside t)
    (h1 : Dominated c.start c'.start) (h2 : Dominated c.ctrl1 c'.ctrl1)
    (h3 : Dominated c.ctrl2 c'.ctrl2) (h4 : Dominated c.end_ c'.end_) (i : Fin n) :
    ∃ v v', c.axis t i = some v ∧ c'.axis t i = some v' ∧ Scalar.lt v' v = false := by
  have ax : ∀ p : PointN (Fl F) n, Point.axis p (i : ℕ) = some (p.coords i) := axis_coord i
  have t0 := ht.nonneg
  have t1 := nonneg_one_sub ht.le_one
  have l3 : Ord (lit 0 : Fl F) (lit 3) := nonneg_lit (by norm_num)
  have o1 := dominated_iff.1 h1 i
  have o2 := dominated_iff.1 h2 i
  have o3 := dominated_iff.1 h3 i
  have o4 := dominated_iff.1 h4 i
  refine ⟨_, _, by rw [CubicBezier.axis, ax, ax, ax, ax]; rfl,
    by rw [CubicBezier.axis, ax, ax, ax, ax]; rfl, ord_iff.1 ?_⟩
  exact (((mul_ord (nonneg_mul (nonneg_mul t1 t1) t1) o1).add
    ((mul_ord (nonneg_mul (nonneg_mul t1 t1) t0) o2).mul l3)).add
    ((mul_ord (nonneg_mul t1 (nonneg_mul t0 t0)) o3).mul l3)).add
    (mul_ord (nonneg_mul (nonneg_mul t0 t0) t0) o4)

/-! ### What `Dominated` says -/

/-- For finite coordinates, `Dominated` is the order of the real numbers they stand for. -/
theorem C111_dominated_finite {p q : PointN (Fl F) n} (hp : ∀ i, (p.coords i).IsFinite)
    (hq : ∀ i, (q.coords i).IsFinite) :
    Dominated p q ↔ ∀ i, (p.coords i).toReal ≤ (q.coords i).toReal := by
  rw [dominated_iff]
  refine forall_congr' fun i => ?_
  obtain ⟨a, ha, ea⟩ := isFinite_iff.1 (hp i)
  obtain ⟨b, hb, eb⟩ := isFinite_iff.1 (hq i)
  rw [ea, eb, ord_fin]
  rfl

/-! ### The other forms do not keep the order -/

/-- **C111** is false of `LineSegment::eval` and of `eval_casteljau`: in binary64, take `s = 1`,
`e = 2⁻⁶⁰`.  The curve with all control points at `e` is below the one that has its last control
point at `e` and all others at `s`; at `t = 1` it evaluates to `2⁻⁶⁰`, the upper one to 0. -/
theorem C111_lerp_false (cosI acosI : ℝ → ℝ) (powI : ℝ → ℝ → ℝ) :
    let F := binary64 cosI acosI powI
    let s : PointN (Fl F) 1 := ⟨fun _ => lit 1⟩
    let e : PointN (Fl F) 1 := ⟨fun _ => fin _ (tiny_ok cosI acosI powI)⟩
    Dominated e s ∧ NotOutside (lit 1 : Fl F) ∧
    ¬ Dominated ((⟨e, e⟩ : LineSegment (PointN (Fl F) 1)).eval (lit 1 : Fl F))
      ((⟨s, e⟩ : LineSegment (PointN (Fl F) 1)).eval (lit 1 : Fl F)) ∧
    ¬ Dominated ((⟨e, e, e⟩ : QuadraticBezier (PointN (Fl F) 1)).evalCasteljau (lit 1 : Fl F))
      ((⟨s, s, e⟩ : QuadraticBezier (PointN (Fl F) 1)).evalCasteljau (lit 1 : Fl F)) ∧
    ¬ Dominated ((⟨e, e, e, e⟩ : CubicBezier (PointN (Fl F) 1)).evalCasteljau (lit 1 : Fl F))
      ((⟨s, s, s, e⟩ : CubicBezier (PointN (Fl F) 1)).evalCasteljau (lit 1 : Fl F)) := by
  intro F s e
  obtain ⟨f1, f2, f3⟩ := C61_false cosI acosI powI
  have le : e + (e - e) * (lit 1 : Fl F) = e := by
    have ks : ExactDiff e e := fun i =>
      ⟨_, tiny_ok cosI acosI powI, _, tiny_ok cosI acosI powI, rfl, rfl, by
        rw [sub_self]; exact F.zero_ok⟩
    exact ks.lerp_one
  have nd : ¬ Dominated e (⟨fun _ => lit 0⟩ : PointN (Fl F) 1) := by
    intro h
    have h0 := dominated_iff.1 h 0
    rw [show ((⟨fun _ => lit 0⟩ : PointN (Fl F) 1).coords 0) = fin 0 F.zero_ok from lit_zero] at h0
    have h1 : (2 : ℝ) ^ (-60 : ℤ) ≤ 0 := ord_fin.1 h0
    exact absurd h1 (not_le.2 (by positivity))
  refine ⟨?_, ⟨?_, ?_⟩, ?_, ?_, ?_⟩
  · refine dominated_iff.2 fun i => ?_
    rw [show s.coords i = fin 1 F.one_ok from lit_one]
    exact ord_fin.2 (zpow_le_one_of_nonpos₀ (by norm_num) (by norm_num))
  · exact ord_iff.1 (nonneg_lit (by norm_num))
  · exact ord_iff.1 (ord_refl _)
  · rw [f1]
    simp only [LineSegment.eval]
    rw [le]; exact nd
  · rw [f2]
    simp only [QuadraticBezier.evalCasteljau]
    rw [le, le]; exact nd
  · rw [f3]
    simp only [CubicBezier.evalCasteljau]
    rw [le, le, le]; exact nd

/-- The hypotheses are met: a cubic below another one, with an infinite coordinate. -/
example (cosI acosI : ℝ → ℝ) (powI : ℝ → ℝ → ℝ) :
    let F := binary64 cosI acosI powI
    let p : ℚ → PointN (Fl F) 2 := fun x => ⟨![lit x, lit (x + 1)]⟩
    let r : PointN (Fl F) 2 := ⟨![inf false, lit 5]⟩
    NotOutside (lit (1 / 2) : Fl F) ∧ Dominated (p 0) (p 1) ∧ Dominated (p 1) r ∧
    Dominated ((⟨p 0, p 1, p 0, p 1⟩ : CubicBezier (PointN (Fl F) 2)).eval (lit (1 / 2) : Fl F))
      ((⟨p 1, p 1, p 0, r⟩ : CubicBezier (PointN (Fl F) 2)).eval (lit (1 / 2) : Fl F)) := by
  intro F p r
  have lo : ∀ x y : ℚ, x ≤ y → Ord (lit x : Fl F) (lit y) := fun x y h => by
    show Ord (F.round (x : ℝ)) (F.round (y : ℝ))
    exact round_ord (by exact_mod_cast h)
  have ht : NotOutside (lit (1 / 2) : Fl F) :=
    ⟨ord_iff.1 (lo _ _ (by norm_num)), ord_iff.1 (lo _ _ (by norm_num))⟩
  have h1 : Dominated (p 0) (p 1) := dominated_iff.2 fun i => by
    fin_cases i
    · exact lo _ _ (by norm_num)
    · exact lo _ _ (by norm_num)
  have h2 : Dominated (p 1) r := dominated_iff.2 fun i => by
    fin_cases i
    · exact ord_posInf _
    · exact lo _ _ (by norm_num)
  exact ⟨ht, h1, h2, C111_cubic _ _ ht h1 (Dominated.refl _) (Dominated.refl _) h2⟩

end Stroke
