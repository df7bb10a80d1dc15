import Verif.Props.Workarounds
import Verif.Props.FloatBSplineNear
import Verif.Props.FloatLine

/-!
# Right results from the code as it is, in floating point (C136)

The detours of Verif/Props/Workarounds.lean with all their operations rounded: the results differ from
the right ones by rounding errors only.
-/

namespace Stroke

open Fl

variable {F : FloatFormat} {n K C D : ℕ}

/-! ### B-splines -/

theorem float_sub {a b : Fl F} {M : ℝ} (ha : a.IsFinite) (hb : b.IsFinite) (ha' : |a.toReal| ≤ M)
    (hb' : |b.toReal| ≤ M) (hmax : (1 + F.u) * (2 * M) + F.eta ≤ F.max) :
    (a - b).IsFinite ∧ |(a - b).toReal - (a.toReal - b.toReal)| ≤ 2 * F.u * M + F.eta ∧
      |(a - b).toReal| ≤ (1 + F.u) * (2 * M) + F.eta := by
  obtain ⟨x, hx, rfl⟩ := isFinite_iff.1 ha
  obtain ⟨y, hy, rfl⟩ := isFinite_iff.1 hb
  rw [toReal_fin] at ha' hb'
  have u0 := F.u_nonneg
  have e := F.rnd_err (x - y)
  have b1 : |x - y| ≤ 2 * M := (abs_sub x y).trans (by linarith)
  have b2 := mul_le_mul_of_nonneg_left b1 u0
  have b3 := abs_add_le (F.rnd (x - y) - (x - y)) (x - y)
  rw [sub_add_cancel] at b3
  have hm : |F.rnd (x - y)| ≤ F.max := by linarith
  rw [fin_sub, F.round_of_rnd_le hm]
  simp only [toReal_fin]
  exact ⟨trivial, by linarith, by linarith⟩

theorem basis_sum {knots : Fin K → ℝ} (v : ValidSpline C D knots) {t : ℝ} {k : ℕ} (hDk : D ≤ k)
    (hkC : k < C) (h1 : knotAt knots k ≤ t) (h2 : t < knotAt knots (k + 1)) :
    ∑ i : Fin C, coxDeBoor (knotAt knots) D i.val t = 1 := by
  have hm : ∀ i j, i ≤ j → j < K → knotAt knots i ≤ knotAt knots j :=
    fun i j hij hj => mono_knotAt v.2.2 hij hj
  have e := coxDeBoor_sum_span hm hDk hkC v.2.1 h1 h2 (fun _ => (1 : ℝ))
  rw [← Fin.sum_univ_eq_sum_range (fun i => coxDeBoor (knotAt knots) D i t * 1) C] at e
  simp only [mul_one, one_mul] at e
  rw [e, coxDeBoor_sum hm hDk (by have := v.2.1; omega) h1 h2]

/-- A weighted mean of numbers of magnitude at most `B`. -/
theorem basis_mean_le {knots : Fin K → ℝ} (v : ValidSpline C D knots) {t : ℝ} {k : ℕ} (hDk : D ≤ k)
    (hkC : k < C) (h1 : knotAt knots k ≤ t) (h2 : t < knotAt knots (k + 1)) {x : Fin C → ℝ} {B : ℝ}
    (hx : ∀ i, |x i| ≤ B) : |∑ i : Fin C, coxDeBoor (knotAt knots) D i.val t * x i| ≤ B := by
  have hm : ∀ i j, i ≤ j → j < K → knotAt knots i ≤ knotAt knots j :=
    fun i j hij hj => mono_knotAt v.2.2 hij hj
  have h0 : ∀ i : Fin C, 0 ≤ coxDeBoor (knotAt knots) D i.val t := fun i =>
    coxDeBoor_nonneg hm D i.val (by have := v.2.1; have := i.2; omega)
  refine (Finset.abs_sum_le_sum_abs _ _).trans ?_
  have : ∀ i ∈ Finset.univ, |coxDeBoor (knotAt knots) D i.val t * x i|
      ≤ coxDeBoor (knotAt knots) D i.val t * B := fun i _ => by
    rw [abs_mul, abs_of_nonneg (h0 i)]
    exact mul_le_mul_of_nonneg_left (hx i) (h0 i)
  refine (Finset.sum_le_sum this).trans ?_
  rw [← Finset.sum_mul, basis_sum v hDk hkC h1 h2, one_mul]

theorem new_other_points {P Q : Type} [Point (Fl F) P] [Point (Fl F) Q] {knots : Arr (Fl F) K}
    {ps : Arr P C} {b : BSpline (Fl F) P K C D} (h : BSpline.new knots ps = .ok b) (qs : Arr Q C) :
    ∃ b' : BSpline (Fl F) Q K C D, BSpline.new knots qs = .ok b' := by
  obtain ⟨v1, v2, v3, -⟩ := (new_generic _ _ _).1 h
  exact ⟨_, (new_generic _ _ _).2 ⟨v1, v2, v3, rfl⟩⟩

/-- **C136** in floating point: evaluate a B-spline with control point `k` moved to the origin, and move
the result back.  `M` bounds the coordinates of the control points, `M'` those of the moved ones, `E` is
the error of `eval` (C83); the result differs from the B-spline by `E`, a rounding error of the
subtraction and one of the addition. -/
theorem C136_float_bspline {knots : Arr (Fl F) K} {ps : Arr (PointN (Fl F) n) C}
    {b₀ : BSpline (Fl F) (PointN (Fl F) n) K C D} (h : BSpline.new knots ps = .ok b₀)
    (hk : FiniteKnots knots) (hn : NearFront D knots ∨ NearBack D knots)
    (hspan : ∀ i j : Fin K, (knots j).toReal - (knots i).toReal ≤ F.max)
    (hu : F.u ≤ 1 / 1024) (he : F.eta ≤ F.epsilon * F.u)
    {t M M' E : ℝ} (hM : 0 ≤ M) (ht : t ∈ F.grid ∧ |t| ≤ F.max) {k : ℕ} (hDk : D ≤ k) (hkC : k < C)
    (ht1 : knotAt (fun i => (knots i).toReal) k ≤ t)
    (ht2 : t < knotAt (fun i => (knots i).toReal) (k + 1))
    (hps : ∀ i, BoundedBy M (ps i)) (hM' : M' = (1 + F.u) * (2 * M) + F.eta)
    (hE : E = ((1 + F.u) ^ 2 * (1 + F.u + F.eta)) ^ D * (M' + D * (3 * (1 + F.u) * F.eta)) - M'
      + D * ((2 * F.epsilon / (knotAt (fun i => (knots i).toReal) (k + 1)
          - knotAt (fun i => (knots i).toReal) k) + 7 * F.u) * (2 * M')))
    (hmax : ((1 + F.u) ^ 2 * (1 + F.u + F.eta)) ^ D * (M' + D * (3 * (1 + F.u) * F.eta)) ≤ F.max)
    (hmax' : (1 + F.u) * (M + (E + (2 * F.u * M + F.eta))) + F.eta ≤ F.max) :
    ∃ (b : BSpline (Fl F) (PointN (Fl F) n) K C D) (q : PointN (Fl F) n),
      BSpline.new knots (fun i => ps i - ps ⟨k, hkC⟩) = .ok b ∧ b.eval (fin t ht) = .ok q ∧
      ∀ c : Fin n, ((q + ps ⟨k, hkC⟩).coords c).IsFinite ∧
        |((q + ps ⟨k, hkC⟩).coords c).toReal
            - splineCoord D (fun i => (knots i).toReal) (fun i => realPoint (ps i)) t c|
          ≤ (1 + F.u) * (E + (2 * F.u * M + F.eta)) + F.u * M + F.eta := by
  have u0 := F.u_nonneg
  have e0 := F.eta_nonneg
  obtain ⟨v1, v2, v3, -⟩ := (new_generic _ _ _).1 h
  have v : ValidSpline C D (fun i => (knots i).toReal) :=
    ⟨v1, v2, (anyDecrease_finiteKnots hk).1 v3⟩
  obtain ⟨b, hb⟩ := new_other_points h (fun i => ps i - ps ⟨k, hkC⟩)
  have hM'max : (1 + F.u) * (2 * M) + F.eta ≤ F.max := by
    rw [← hM']
    refine le_trans ?_ hmax
    have g : 1 ≤ ((1 + F.u) ^ 2 * (1 + F.u + F.eta)) ^ D :=
      one_le_pow₀ (one_le_mul_of_one_le_of_one_le (one_le_pow₀ (by linarith)) (by linarith))
    have m : M' ≤ M' + D * (3 * (1 + F.u) * F.eta) := le_add_of_nonneg_right (by positivity)
    have m0 : 0 ≤ M' := by rw [hM']; positivity
    exact m.trans (le_mul_of_one_le_left (m0.trans m) g)
  have sub := fun i c => float_sub (hps i c).1 (hps ⟨k, hkC⟩ c).1 (hps i c).2 (hps ⟨k, hkC⟩ c).2 hM'max
  obtain ⟨q, hq, hc⟩ := C83_one_end hb hk hn hspan hu he ht hDk hkC ht1 ht2
    (fun i c => (sub i c).1) (fun i c => by rw [hM']; exact (sub i c).2.2) hmax
  refine ⟨b, q, hb, hq, fun c => ?_⟩
  obtain ⟨qf, qe⟩ := hc c
  rw [← hE] at qe
  obtain ⟨x, hx, ex⟩ := isFinite_iff.1 qf
  obtain ⟨p, hp, ep⟩ := isFinite_iff.1 (hps ⟨k, hkC⟩ c).1
  have z : ((ps ⟨k, hkC⟩ - ps ⟨k, hkC⟩).coords c).toReal = 0 := by
    rw [coords_sub, ep, fin_sub, sub_self, F.round_of_mem F.zero_ok, toReal_fin]
  rw [z, mul_zero, sub_zero, ex, toReal_fin] at qe
  have cp : coord (realPoint (ps ⟨k, hkC⟩)) c = p := by
    rw [show coord (realPoint (ps ⟨k, hkC⟩)) c = ((ps ⟨k, hkC⟩).coords c).toReal from coord_pn n _ c,
      ep, toReal_fin]
  set S := splineCoord D (fun i => (knots i).toReal) (fun i => realPoint (ps i)) t c with hS
  have hSM : |S| ≤ M := by
    rw [hS]
    exact basis_mean_le v hDk hkC ht1 ht2 (x := fun i => coord (realPoint (ps i)) c) fun i => by
      rw [show coord (realPoint (ps i)) c = ((ps i).coords c).toReal from coord_pn n _ c]
      exact (hps i c).2
  have hd : |splineCoord D (fun i => (knots i).toReal) (fun i => realPoint (ps i - ps ⟨k, hkC⟩)) t c
      - (S - p)| ≤ 2 * F.u * M + F.eta := by
    have e := splineCoord_sub v hDk hkC ht1 ht2 (fun i => realPoint (ps i)) (realPoint (ps ⟨k, hkC⟩)) c
    rw [cp, ← hS] at e
    rw [← e]
    unfold splineCoord
    rw [← Finset.sum_sub_distrib]
    simp only [← mul_sub]
    refine basis_mean_le v hDk hkC ht1 ht2 (x := fun i => coord (realPoint (ps i - ps ⟨k, hkC⟩)) c
      - coord (realPoint (ps i) - realPoint (ps ⟨k, hkC⟩)) c) fun i => ?_
    rw [show coord (realPoint (ps i - ps ⟨k, hkC⟩)) c = ((ps i - ps ⟨k, hkC⟩).coords c).toReal from
        coord_pn n _ c, coord_sub, cp,
      show coord (realPoint (ps i)) c = ((ps i).coords c).toReal from coord_pn n _ c]
    have := (sub i c).2.1
    rw [show ((ps ⟨k, hkC⟩).coords c).toReal = p by rw [ep, toReal_fin]] at this
    exact this
  have hδ : |x + p - S| ≤ E + (2 * F.u * M + F.eta) := by
    have := abs_add_le (x - splineCoord D (fun i => (knots i).toReal)
      (fun i => realPoint (ps i - ps ⟨k, hkC⟩)) t c)
      (splineCoord D (fun i => (knots i).toReal) (fun i => realPoint (ps i - ps ⟨k, hkC⟩)) t c - (S - p))
    rw [sub_add_sub_cancel, show x - (S - p) = x + p - S by ring] at this
    linarith
  have hxp : |x + p| ≤ M + (E + (2 * F.u * M + F.eta)) := by
    have := abs_add_le (x + p - S) S
    rw [sub_add_cancel] at this
    linarith
  have r := F.rnd_err (x + p)
  have r1 := mul_le_mul_of_nonneg_left hxp u0
  have hm : |F.rnd (x + p)| ≤ F.max := by
    have := abs_add_le (F.rnd (x + p) - (x + p)) (x + p)
    rw [sub_add_cancel] at this
    linarith
  rw [coords_add, ex, ep, fin_add, F.round_of_rnd_le hm, toReal_fin]
  refine ⟨trivial, ?_⟩
  have := abs_add_le (F.rnd (x + p) - (x + p)) (x + p - S)
  rw [sub_add_sub_cancel] at this
  linarith

/-- The knot vector with `D` more copies of the first knot in front. -/
def paddedFloats (D : ℕ) (hK : 0 < K) (knots : Arr (Fl F) K) : Arr (Fl F) (K + D) :=
  fun i => knots ⟨i.val - D, by omega⟩

theorem paddedFloats_real (hK : 0 < K) (knots : Arr (Fl F) K) :
    (fun i => (paddedFloats D hK knots i).toReal) = paddedKnots D fun i => (knots i).toReal := by
  funext i
  rw [paddedKnots, knotAt_lt _ (show i.val - D < K by omega), paddedFloats]

/-- **C136** in floating point, splines of every kind: with `D` more copies of the first knot and `D`
arbitrary control points in front. -/
theorem C136_float_bspline_any_kind {knots : Arr (Fl F) K} {ps : Arr (PointN (Fl F) n) C}
    {b₀ : BSpline (Fl F) (PointN (Fl F) n) K C D} (h : BSpline.new knots ps = .ok b₀) (hK : 0 < K)
    (extra : ℕ → PointN (Fl F) n) (hk : FiniteKnots knots)
    (hspan : ∀ i j : Fin K, (knots j).toReal - (knots i).toReal ≤ F.max)
    (hu : F.u ≤ 1 / 1024) (he : F.eta ≤ F.epsilon * F.u)
    {t M M' E : ℝ} (hM : 0 ≤ M) (ht : t ∈ F.grid ∧ |t| ≤ F.max) {k : ℕ} (hDk : D ≤ k) (hkC : k < C)
    (ht1 : knotAt (fun i => (knots i).toReal) k ≤ t)
    (ht2 : t < knotAt (fun i => (knots i).toReal) (k + 1))
    (hps : ∀ i, BoundedBy M (ps i)) (hex : ∀ i, BoundedBy M (extra i))
    (hM' : M' = (1 + F.u) * (2 * M) + F.eta)
    (hE : E = ((1 + F.u) ^ 2 * (1 + F.u + F.eta)) ^ D * (M' + D * (3 * (1 + F.u) * F.eta)) - M'
      + D * ((2 * F.epsilon / (knotAt (fun i => (knots i).toReal) (k + 1)
          - knotAt (fun i => (knots i).toReal) k) + 7 * F.u) * (2 * M')))
    (hmax : ((1 + F.u) ^ 2 * (1 + F.u + F.eta)) ^ D * (M' + D * (3 * (1 + F.u) * F.eta)) ≤ F.max)
    (hmax' : (1 + F.u) * (M + (E + (2 * F.u * M + F.eta))) + F.eta ≤ F.max) :
    ∃ (b : BSpline (Fl F) (PointN (Fl F) n) (K + D) (C + D) D) (q : PointN (Fl F) n),
      BSpline.new (paddedFloats D hK knots)
        (fun i => paddedPoints D extra ps i - ps ⟨k, hkC⟩) = .ok b ∧
      b.eval (fin t ht) = .ok q ∧
      ∀ c : Fin n, ((q + ps ⟨k, hkC⟩).coords c).IsFinite ∧
        |((q + ps ⟨k, hkC⟩).coords c).toReal
            - splineCoord D (fun i => (knots i).toReal) (fun i => realPoint (ps i)) t c|
          ≤ (1 + F.u) * (E + (2 * F.u * M + F.eta)) + F.u * M + F.eta := by
  obtain ⟨v1, v2, v3, -⟩ := (new_generic _ _ _).1 h
  have v : ValidSpline C D (fun i => (knots i).toReal) :=
    ⟨v1, v2, (anyDecrease_finiteKnots hk).1 v3⟩
  have hkp : FiniteKnots (paddedFloats D hK knots) := fun i => hk _
  have vp := padded_valid v
  rw [← paddedFloats_real hK] at vp
  have e1 : knotAt (fun i => (paddedFloats D hK knots i).toReal) (k + D)
      = knotAt (fun i => (knots i).toReal) k := by
    rw [paddedFloats_real, knotAt_padded _ (by omega), Nat.add_sub_cancel]
  have e2 : knotAt (fun i => (paddedFloats D hK knots i).toReal) (k + D + 1)
      = knotAt (fun i => (knots i).toReal) (k + 1) := by
    rw [paddedFloats_real, knotAt_padded _ (by omega), show k + D + 1 - D = k + 1 by omega]
  have hnew := (new_generic (D := D) (paddedFloats D hK knots) (paddedPoints D extra ps) _).2
    ⟨vp.1, vp.2.1, (anyDecrease_finiteKnots hkp).2 vp.2.2, rfl⟩
  have hnear : NearFront D (paddedFloats D hK knots) := by
    intro i j hi hj
    have : paddedFloats D hK knots i = paddedFloats D hK knots j := by
      unfold paddedFloats
      congr 2
      omega
    rw [this]
    obtain ⟨x, hx, ex⟩ := isFinite_iff.1 (hkp j)
    rw [ex, fin_sub, sub_self, F.round_of_mem F.zero_ok, epsilon_eq]
    show Scalar.lt (fin |0| _) _ = true
    simpa only [abs_zero, lt_fin] using F.epsilon_pos
  have ek : paddedPoints D extra ps ⟨k + D, by omega⟩ = ps ⟨k, hkC⟩ := by
    unfold paddedPoints
    rw [dif_pos (by simp)]
    congr 2
    simp
  obtain ⟨b, q, hb, hq, hc⟩ := C136_float_bspline hnew hkp (Or.inl hnear)
    (fun i j => hspan _ _) hu he hM ht (k := k + D) (by omega) (by omega) (by rw [e1]; exact ht1)
    (by rw [e2]; exact ht2)
    (fun i => by
      unfold paddedPoints
      split_ifs
      · exact hps _
      · exact hex _) hM' (by rw [e1, e2]; exact hE) hmax hmax'
  rw [ek] at hb hc
  refine ⟨b, q, hb, hq, fun c => ?_⟩
  have ep : (fun i => realPoint (paddedPoints D extra ps i))
      = paddedPoints D (fun i => realPoint (extra i)) (fun i => realPoint (ps i)) := by
    funext i
    unfold paddedPoints
    split_ifs <;> rfl
  have := hc c
  rw [ep, paddedFloats_real, splineCoord_padded v _ _ hDk hkC ht1 ht2] at this
  exact this

/-! ### Distance from a segment -/

theorem line_distance_finite (l : LineSegment (PointN (Fl F) n)) (p : PointN (Fl F) n)
    {M : ℝ} (hM : 0 ≤ M) (hu : F.u ≤ 1 / 1024) (he : F.eta ≤ 1 / 1024)
    (hs : BoundedBy M l.start) (hd : BoundedBy M l.end_) (hp : BoundedBy M p)
    (hmax : 5 / 2 * (M + lineTiny F M) + 1 ≤ F.max)
    (hmax' : (1 + F.u) ^ (n + 1) * (n * (5 / 2 * (M + lineTiny F M) + 1) ^ 2)
      + 2 * n * (1 + F.u) ^ n * F.eta ≤ F.max) :
    ∃ d, l.distanceToPoint p = some d ∧ d.IsFinite ∧ 0 ≤ d.toReal := by
  have E0 := lineTiny_nonneg (F := F) hM
  have wide : ∀ {x : PointN (Fl F) n}, BoundedBy M x → BoundedBy (M + lineTiny F M) x :=
    fun h i => ⟨(h i).1, (h i).2.trans (by linarith)⟩
  rcases line_branches l p with hb | ⟨t, ht, t0, t1, hb⟩
  · have := sq_finite_of_bounded hu he (wide hs) (wide hp) (by linarith) hmax hmax'
    obtain ⟨_, df, d0, _⟩ := C88_point_distance l.start p this
    exact ⟨_, hb, df, d0⟩
  · have hEv : BoundedBy (M + lineTiny F M) (l.eval (fin t ht)) := by
      intro i
      obtain ⟨f, g⟩ := C67_line_eval l ht t0 t1 hu he hs hd (by linarith) i
      refine ⟨f, ?_⟩
      set z := ((l.eval (fin t ht)).coords i).toReal
      set y := (1 - t) * (l.start.coords i).toReal + t * (l.end_.coords i).toReal with hy
      have a1 := abs_add_le (z - y) y
      rw [sub_add_cancel] at a1
      have a2 := abs_add_le ((1 - t) * (l.start.coords i).toReal) (t * (l.end_.coords i).toReal)
      rw [← hy, abs_mul, abs_mul, abs_of_nonneg t0, abs_of_nonneg (sub_nonneg.2 t1)] at a2
      have a3 := mul_le_mul_of_nonneg_left (hs i).2 (sub_nonneg.2 t1)
      have a4 := mul_le_mul_of_nonneg_left (hd i).2 t0
      unfold lineTiny
      linarith
    have := sq_finite_of_bounded (p := p) (q := l.eval (fin t ht)) hu he (wide hp) hEv (by linarith)
      hmax hmax'
    obtain ⟨_, df, d0, _⟩ := C88_point_distance p (l.eval (fin t ht)) this
    exact ⟨_, hb, df, d0⟩

theorem projTiny_mono {V W : ℝ} (h : V ≤ W) : projTiny F n V ≤ projTiny F n W := by
  unfold projTiny
  have := F.u_nonneg
  gcongr

theorem along_sum (a b p : PointN (Fl F) n) :
    ∑ i, ((p.coords i).toReal - (a.coords i).toReal) * ((b.coords i).toReal - (a.coords i).toReal)
      + ∑ i, ((p.coords i).toReal - (b.coords i).toReal) * ((a.coords i).toReal - (b.coords i).toReal)
      = pdist b.real a.real ^ 2 := by
  have hsq : pdist b.real a.real ^ 2 = ∑ i, ((b.coords i).toReal - (a.coords i).toReal) ^ 2 := by
    rw [pdist_sq]
    show ∑ i ∈ Finset.range n, (coord b.real i - coord a.real i) ^ 2 = _
    rw [Finset.sum_range]
    exact Finset.sum_congr rfl fun i _ => by
      rw [show coord b.real i = (b.coords i).toReal from coord_pn n _ i,
        show coord a.real i = (a.coords i).toReal from coord_pn n _ i]
  rw [hsq, ← Finset.sum_add_distrib]
  exact Finset.sum_congr rfl fun i _ => by ring

theorem segmentDistance_eval {x y p : PointN (Fl F) n} {e : ℝ}
    (h : e ∈ segmentDistances x.real y.real p.real) :
    ∃ s, 0 ≤ s ∧ s ≤ 1 ∧ e = pdist ((LineSegment.new x y).real.eval s) p.real := by
  obtain ⟨s, s0, s1, hs⟩ := h
  refine ⟨s, s0, s1, hs.trans ?_⟩
  unfold pdist
  congr 1
  apply Finset.sum_congr rfl
  intro i _
  rw [show coord ((LineSegment.new x y).real.eval s) i
    = (1 - s) * coord x.real i + s * coord y.real i from C05_eval (LineSegment.new x y).real s i]

/-- **C136** in floating point: the smaller of the distances from the segment in the two directions.
`L` is the length of the segment, `V` bounds the distances of the point from its ends, `M` the
coordinates.  If the segment is not too short for `V`, the result differs from the distance by
rounding errors, wherever the point is; the result of `distance_to_point` itself can be wrong by the
length of the segment (C07). -/
theorem C136_float_distance (a b p : PointN (Fl F) n)
    {M L V : ℝ} (hM : 0 ≤ M) (hu : F.u ≤ 1 / 1024) (he : F.eta ≤ 1 / 1024)
    (ha : BoundedBy M a) (hb : BoundedBy M b) (hp : BoundedBy M p)
    (hmax : 5 / 2 * (M + lineTiny F M) + 1 ≤ F.max)
    (hmax' : (1 + F.u) ^ (n + 1) * (n * (5 / 2 * (M + lineTiny F M) + 1) ^ 2)
      + 2 * n * (1 + F.u) ^ n * F.eta ≤ F.max)
    (hn : (n + 4 : ℕ) * F.u ≤ 1 / 64) (hη : n * F.eta ≤ F.u ^ 2 * F.epsilon)
    (hL : L = pdist b.real a.real) (hVa : pdist p.real a.real ≤ V) (hVb : pdist p.real b.real ≤ V)
    (hlong : 2 * F.epsilon ≤ L ^ 2) (hfar : 2 * (projTiny F n V + F.eta * L) < L) :
    ∃ d d', (LineSegment.new a b).distanceToPoint p = some d ∧
      (LineSegment.new b a).distanceToPoint p = some d' ∧ d.IsFinite ∧ d'.IsFinite ∧
      0 ≤ min d.toReal d'.toReal ∧
      NearSegment a.real b.real p.real ((1 + 2 * (n + 3 : ℕ) * F.u)
        * (min d.toReal d'.toReal + distTiny F n) + Real.sqrt n * lineTiny F M) ∧
      ∀ e ∈ segmentDistances a.real b.real p.real, min d.toReal d'.toReal
        ≤ (1 + F.u) ^ (n + 3) * (e + projTiny F n V + F.eta * L + Real.sqrt n * lineTiny F M)
          + distTiny F n := by
  have u0 := F.u_nonneg
  have e0 := F.eta_nonneg
  have E0 := lineTiny_nonneg (F := F) hM
  obtain ⟨d, hd, fd, d0⟩ := line_distance_finite (LineSegment.new a b) p hM hu he ha hb hp hmax hmax'
  obtain ⟨d', hd', fd', d0'⟩ := line_distance_finite (LineSegment.new b a) p hM hu he hb ha hp hmax hmax'
  have hn3 : ((n + 3 : ℕ) : ℝ) * F.u ≤ 1 / 4 := by
    push_cast at hn ⊢
    linarith
  have s1 := (C89_line_sound (LineSegment.new a b) p hM hu he ha hb (by linarith) hn3 hd fd).2
  have s2 := (C89_line_sound (LineSegment.new b a) p hM hu he hb ha (by linarith) hn3 hd' fd').2
  have s2' : NearSegment a.real b.real p.real ((1 + 2 * (n + 3 : ℕ) * F.u)
      * (d'.toReal + distTiny F n) + Real.sqrt n * lineTiny F M) := by
    obtain ⟨e, he', h⟩ := s2
    exact ⟨e, by rw [segmentDistances_comm]; exact he', h⟩
  refine ⟨d, d', hd, hd', fd, fd', le_min d0 d0', ?_, ?_⟩
  · rcases min_choice d.toReal d'.toReal with h | h <;> rw [h]
    exacts [s1, s2']
  · have hL' : L = pdist a.real b.real := by rw [hL, pdist_comm]
    have Lnn : 0 ≤ L := by rw [hL]; exact pdist_nonneg _ _
    have L0 : 0 < L := by
      rcases Lnn.lt_or_eq with h | h
      · exact h
      · rw [← h] at hlong; norm_num at hlong; linarith [F.epsilon_pos]
    set S1 := ∑ i, ((p.coords i).toReal - (a.coords i).toReal)
        * ((b.coords i).toReal - (a.coords i).toReal) with hS1
    set S2 := ∑ i, ((p.coords i).toReal - (b.coords i).toReal)
        * ((a.coords i).toReal - (b.coords i).toReal) with hS2
    have hS : S1 + S2 = L ^ 2 := by rw [hL]; exact along_sum a b p
    have hfar' := mul_lt_mul_of_pos_right hfar L0
    intro e hemem
    have finish : ∀ {x W : ℝ}, W ≤ V → x ≤ (1 + F.u) ^ (n + 3) * (e + projTiny F n W + F.eta * L
        + Real.sqrt n * lineTiny F M) + distTiny F n →
        x ≤ (1 + F.u) ^ (n + 3) * (e + projTiny F n V + F.eta * L
        + Real.sqrt n * lineTiny F M) + distTiny F n := fun hW hx => by
      have h1 := projTiny_mono (F := F) (n := n) hW
      refine hx.trans ?_
      gcongr
    have small : ∀ {W : ℝ}, W ≤ V → projTiny F n W * L ≤ projTiny F n V * L := fun hW =>
      mul_le_mul_of_nonneg_right (projTiny_mono hW) Lnn
    rcases lt_or_ge (S1 + projTiny F n V * L + F.eta * L ^ 2) (L ^ 2) with h | h
    · obtain ⟨x, hx, -, -, hacc⟩ := C89_line_accurate (LineSegment.new a b) p hM hu he ha hb hp hmax hmax'
        hn hη hL rfl hlong (by
          have := small hVa
          show S1 + projTiny F n (pdist p.real a.real) * L + F.eta * L ^ 2 < L ^ 2
          linarith)
      obtain rfl : d = x := Option.some.inj (hd.symm.trans hx)
      obtain ⟨s, s0, s1, hs⟩ := segmentDistance_eval hemem
      have := hacc s s0 s1
      rw [← hs] at this
      exact (min_le_left _ _).trans (finish hVa this)
    · obtain ⟨x, hx, -, -, hacc⟩ := C89_line_accurate (LineSegment.new b a) p hM hu he hb ha hp hmax hmax'
        hn hη hL' rfl hlong (by
          have := small hVb
          show S2 + projTiny F n (pdist p.real b.real) * L + F.eta * L ^ 2 < L ^ 2
          nlinarith)
      obtain rfl : d' = x := Option.some.inj (hd'.symm.trans hx)
      rw [segmentDistances_comm] at hemem
      obtain ⟨s, s0, s1, hs⟩ := segmentDistance_eval hemem
      have := hacc s s0 s1
      rw [← hs] at this
      exact (min_le_right _ _).trans (finish hVb this)

section Binary64

variable (cosI acosI : ℝ → ℝ) (powI : ℝ → ℝ → ℝ)

theorem line_distance_finite_binary64 (l : LineSegment (PointN (Fl (binary64 cosI acosI powI)) 2))
    (p : PointN (Fl (binary64 cosI acosI powI)) 2) {M : ℝ} (hM : 0 ≤ M) (hM' : M ≤ 10 ^ 9)
    (hs : BoundedBy M l.start) (hd : BoundedBy M l.end_) (hp : BoundedBy M p) :
    ∃ d, l.distanceToPoint p = some d ∧ d.IsFinite ∧ 0 ≤ d.toReal := by
  have hu : (binary64 cosI acosI powI).u = 2 ^ (-(53 : ℕ) : ℤ) := rfl
  have heta := binary64_eta cosI acosI powI
  have hmx := binary64_max cosI acosI powI
  generalize binary64 cosI acosI powI = F at *
  have e0 := F.eta_nonneg
  have u0 := F.u_nonneg
  have u1 : F.u ≤ 1 / 10 ^ 15 := by rw [hu]; norm_num
  have g3 : (1 + F.u) ^ (2 + 1) ≤ 2 := by rw [hu]; norm_num
  have g2 : (1 + F.u) ^ 2 ≤ 2 := by rw [hu]; norm_num
  have hE : lineTiny F M ≤ 6 / 10 ^ 15 * M + 1 / 10 ^ 50 := by
    unfold lineTiny
    have a1 := mul_le_mul_of_nonneg_right u1 hM
    have a2 : (4 : ℝ) * (1 / 10 ^ 60) ≤ 1 / 10 ^ 50 := by norm_num
    linarith
  have E0 := lineTiny_nonneg (F := F) hM
  have hB : 5 / 2 * (M + lineTiny F M) + 1 ≤ 10 ^ 10 := by
    have : (6 : ℝ) / 10 ^ 15 * M ≤ 1 * M := mul_le_mul_of_nonneg_right (by norm_num) hM
    norm_num at this hE hM' ⊢
    linarith
  refine line_distance_finite l p hM (u1.trans (by norm_num)) (heta.trans (by norm_num)) hs hd hp
    (hB.trans (le_trans (by norm_num) hmx)) ?_
  have a0 : (5 / 2 * (M + lineTiny F M) + 1) ^ 2 ≤ 10 ^ 20 := by
    calc (5 / 2 * (M + lineTiny F M) + 1) ^ 2 ≤ (10 ^ 10) ^ 2 :=
          pow_le_pow_left₀ (by positivity) hB 2
      _ = 10 ^ 20 := by norm_num
  have a1 : (1 + F.u) ^ (2 + 1) * (((2 : ℕ) : ℝ) * (5 / 2 * (M + lineTiny F M) + 1) ^ 2)
      ≤ 2 * (2 * 10 ^ 20) := by
    apply mul_le_mul g3 _ (by positivity) (by norm_num)
    push_cast
    linarith
  have a2 : 2 * ((2 : ℕ) : ℝ) * (1 + F.u) ^ 2 * F.eta ≤ 8 * 1 := by
    apply mul_le_mul _ (heta.trans (by norm_num)) e0 (by norm_num)
    push_cast
    linarith
  have : (2 : ℝ) * (2 * 10 ^ 20) + 8 * 1 ≤ 10 ^ 60 := by norm_num
  exact (add_le_add a1 a2).trans (this.trans hmx)

set_option maxHeartbeats 1000000 in
/-- The lower bound on the computed distance, in numbers. -/
theorem near_numbers {F : FloatFormat} (hu : F.u = 2 ^ (-(53 : ℕ) : ℤ)) (heta : F.eta ≤ 1 / 10 ^ 60)
    {M d : ℝ} (hM : 0 ≤ M) (hd : 0 ≤ d) :
    (1 + 2 * (2 + 3 : ℕ) * F.u) * (d + distTiny F 2) + Real.sqrt (2 : ℕ) * lineTiny F M
      ≤ (1 + 2 / 10 ^ 15) * d + 1 / 10 ^ 13 * M + 1 / 10 ^ 25 := by
  have e0 := F.eta_nonneg
  have u0 := F.u_nonneg
  have u1 : F.u ≤ 2 / 10 ^ 16 := by rw [hu]; norm_num
  have s2 : Real.sqrt ((2 : ℕ) : ℝ) ≤ 2 := by
    rw [Real.sqrt_le_left (by norm_num)]; norm_num
  have g2 : (1 + F.u) ^ 2 ≤ 2 := by nlinarith
  have g4 : (1 + F.u) ^ (2 + 2) ≤ 2 := by rw [hu]; norm_num
  have t1 : (1 + F.u) ^ (2 + 2) * (Real.sqrt ((2 : ℕ) : ℝ) * F.eta) ≤ 2 * (2 * (1 / 10 ^ 60)) :=
    mul_le_mul g4 (mul_le_mul s2 heta e0 (by norm_num)) (by positivity) (by norm_num)
  have t2 : Real.sqrt (2 * (2 : ℕ) * (1 + F.u) ^ 2 * F.eta) ≤ 3 / 10 ^ 30 := by
    rw [Real.sqrt_le_left (by norm_num)]
    have : 2 * ((2 : ℕ) : ℝ) * (1 + F.u) ^ 2 * F.eta ≤ 8 * (1 / 10 ^ 60) :=
      mul_le_mul (by push_cast; linarith) heta e0 (by norm_num)
    refine this.trans (by norm_num)
  have t3 : (1 + F.u) * Real.sqrt (2 * (2 : ℕ) * (1 + F.u) ^ 2 * F.eta) ≤ 2 * (3 / 10 ^ 30) :=
    mul_le_mul (by linarith) t2 (Real.sqrt_nonneg _) (by norm_num)
  have hdt : distTiny F 2 ≤ 1 / 10 ^ 28 := by
    unfold distTiny
    have : (2 : ℝ) * (2 * (1 / 10 ^ 60)) + 2 * (3 / 10 ^ 30) + 1 / 10 ^ 60 ≤ 1 / 10 ^ 28 := by norm_num
    linarith
  have hdt0 : 0 ≤ distTiny F 2 := by unfold distTiny; positivity
  have hl : lineTiny F M ≤ 12 / 10 ^ 16 * M + 4 / 10 ^ 60 := by
    unfold lineTiny
    have := mul_le_mul_of_nonneg_right u1 hM
    linarith
  have hl' : Real.sqrt ((2 : ℕ) : ℝ) * lineTiny F M ≤ 2 * (12 / 10 ^ 16 * M + 4 / 10 ^ 60) :=
    mul_le_mul s2 hl (lineTiny_nonneg hM) (by norm_num)
  have hc : 1 + 2 * ((2 + 3 : ℕ) : ℝ) * F.u ≤ 1 + 2 / 10 ^ 15 := by push_cast; linarith
  have hm : (1 + 2 * ((2 + 3 : ℕ) : ℝ) * F.u) * (d + distTiny F 2)
      ≤ (1 + 2 / 10 ^ 15) * (d + 1 / 10 ^ 28) :=
    mul_le_mul hc (by linarith) (by positivity) (by norm_num)
  refine (add_le_add hm hl').trans ?_
  norm_num
  linarith

/-- **C136** in numbers: for an `f64` segment in the plane of length at least 1 and coordinates up to
`M ≤ 10^9`, the smaller of the distances in the two directions differs from the distance by at most a
relative `2 · 10⁻¹⁵` and an absolute `10⁻¹³ M + 10⁻²⁵`, for every point: it exceeds no distance to a
point of the segment by more, and some point of the segment is as near, up to this. -/
theorem C136_binary64_distance (a b p : PointN (Fl (binary64 cosI acosI powI)) 2) {M : ℝ}
    (hM : 0 ≤ M) (hM' : M ≤ 10 ^ 9) (ha : BoundedBy M a) (hb : BoundedBy M b) (hp : BoundedBy M p)
    (hlong : 1 ≤ pdist b.real a.real) :
    ∃ d d', (LineSegment.new a b).distanceToPoint p = some d ∧
      (LineSegment.new b a).distanceToPoint p = some d' ∧ d.IsFinite ∧ d'.IsFinite ∧
      0 ≤ min d.toReal d'.toReal ∧
      NearSegment a.real b.real p.real
        ((1 + 2 / 10 ^ 15) * min d.toReal d'.toReal + 1 / 10 ^ 13 * M + 1 / 10 ^ 25) ∧
      ∀ e ∈ segmentDistances a.real b.real p.real, min d.toReal d'.toReal
        ≤ (1 + 1 / 10 ^ 15) * e + 1 / 10 ^ 13 * M + 1 / 10 ^ 25 := by
  obtain ⟨d, hd, fd, d0⟩ := line_distance_finite_binary64 cosI acosI powI (LineSegment.new a b) p
    hM hM' ha hb hp
  obtain ⟨d', hd', fd', d0'⟩ := line_distance_finite_binary64 cosI acosI powI (LineSegment.new b a) p
    hM hM' hb ha hp
  have hu : (binary64 cosI acosI powI).u = 2 ^ (-(53 : ℕ) : ℤ) := rfl
  have heta := binary64_eta cosI acosI powI
  have hu1 : (binary64 cosI acosI powI).u ≤ 1 / 1024 := by rw [hu]; norm_num
  have hn3 : ((2 + 3 : ℕ) : ℝ) * (binary64 cosI acosI powI).u ≤ 1 / 4 := by rw [hu]; norm_num
  have hB : 5 / 2 * M + 1 ≤ (binary64 cosI acosI powI).max := by
    refine le_trans ?_ (binary64_max cosI acosI powI)
    norm_num at hM' ⊢
    linarith
  refine ⟨d, d', hd, hd', fd, fd', le_min d0 d0', ?_, fun e he => ?_⟩
  · rcases min_choice d.toReal d'.toReal with h | h <;> rw [h]
    · obtain ⟨e, he, hle⟩ := (C89_line_sound (LineSegment.new a b) p hM hu1
        (heta.trans (by norm_num)) ha hb hB hn3 hd fd).2
      exact ⟨e, he, hle.trans (near_numbers hu heta hM d0)⟩
    · obtain ⟨e, he, hle⟩ := (C89_line_sound (LineSegment.new b a) p hM hu1
        (heta.trans (by norm_num)) hb ha hB hn3 hd' fd').2
      exact ⟨e, by rw [segmentDistances_comm]; exact he, hle.trans (near_numbers hu heta hM d0')⟩
  have hlong' : 1 ≤ pdist a.real b.real := by rwa [pdist_comm]
  have hS := along_sum a b p
  have h1 : (1 : ℝ) ≤ pdist b.real a.real ^ 2 := one_le_pow₀ hlong
  rcases le_or_gt (∑ i, ((p.coords i).toReal - (a.coords i).toReal)
      * ((b.coords i).toReal - (a.coords i).toReal)) ((1 - 1 / 10 ^ 4) * pdist b.real a.real ^ 2)
    with h | h
  · obtain ⟨x, hx, -, -, hacc⟩ := C89_line_binary64 cosI acosI powI (LineSegment.new a b) p hM hM' ha hb
      hp hlong h
    obtain rfl : d = x := Option.some.inj (hd.symm.trans hx)
    obtain ⟨s, s0, s1, hs⟩ := segmentDistance_eval he
    rw [hs]
    exact (min_le_left _ _).trans (hacc s s0 s1)
  · obtain ⟨x, hx, -, -, hacc⟩ := C89_line_binary64 cosI acosI powI (LineSegment.new b a) p hM hM' hb ha
      hp hlong' (by
        show ∑ i, ((p.coords i).toReal - (b.coords i).toReal)
          * ((a.coords i).toReal - (b.coords i).toReal) ≤ (1 - 1 / 10 ^ 4) * pdist a.real b.real ^ 2
        rw [pdist_comm a.real]
        linarith)
    obtain rfl : d' = x := Option.some.inj (hd'.symm.trans hx)
    rw [segmentDistances_comm] at he
    obtain ⟨s, s0, s1, hs⟩ := segmentDistance_eval he
    rw [hs]
    exact (min_le_right _ _).trans (hacc s s0 s1)

/-- **C136** in numbers: `is_linear` in both directions, for an `f64` curve in the plane with ends at
least 1 apart and coordinates up to `M ≤ 10^9`: the test passes if the control point is within the
tolerance of the segment with room for rounding errors, and if it passes the whole curve is within the
tolerance of the segment up to rounding errors. -/
theorem C136_binary64_is_linear (a b c : PointN (Fl (binary64 cosI acosI powI)) 2) {M : ℝ}
    (hM : 0 ≤ M) (hM' : M ≤ 10 ^ 9) (ha : BoundedBy M a) (hb : BoundedBy M b) (hc : BoundedBy M c)
    (hlong : 1 ≤ pdist c.real a.real) {tol : Fl (binary64 cosI acosI powI)} (htol : tol.IsFinite) :
    ∃ r r', (QuadraticBezier.new a b c).isLinear tol = some r ∧
      (QuadraticBezier.new c b a).isLinear tol = some r' ∧
      (∀ e ∈ segmentDistances a.real c.real b.real,
        (1 + 1 / 10 ^ 15) * e + 1 / 10 ^ 13 * M + 1 / 10 ^ 25 ≤ tol.toReal → (r || r') = true) ∧
      ((r || r') = true → ∀ t, 0 ≤ t → t ≤ 1 → NearSegment a.real c.real
        ((QuadraticBezier.new a b c).real.eval t)
        ((1 + 2 / 10 ^ 15) * tol.toReal + 1 / 10 ^ 13 * M + 1 / 10 ^ 25)) := by
  have hlong' : 1 ≤ pdist a.real c.real := by rwa [pdist_comm]
  obtain ⟨d, d', hd, hd', fd, fd', hmin0, -, hmin⟩ := C136_binary64_distance cosI acosI powI a c b hM hM' ha hc
    hb hlong
  have i1 : (QuadraticBezier.new a b c).isLinear tol = some (Scalar.le d tol) := by
    unfold QuadraticBezier.isLinear QuadraticBezier.arePointsColinear QuadraticBezier.baseline
    have e := baseline_long cosI acosI powI ⟨a, c⟩ hM hM' ha hc hlong
    simp only [QuadraticBezier.new, e, Bool.false_eq_true, if_false]
    rw [show (LineSegment.distanceToPoint ⟨a, c⟩ b) = some d from hd]
    rfl
  have i2 : (QuadraticBezier.new c b a).isLinear tol = some (Scalar.le d' tol) := by
    unfold QuadraticBezier.isLinear QuadraticBezier.arePointsColinear QuadraticBezier.baseline
    have e := baseline_long cosI acosI powI ⟨c, a⟩ hM hM' hc ha hlong'
    simp only [QuadraticBezier.new, e, Bool.false_eq_true, if_false]
    rw [show (LineSegment.distanceToPoint ⟨c, a⟩ b) = some d' from hd']
    rfl
  refine ⟨_, _, i1, i2, fun e he hle => ?_, fun h t t0 t1 => ?_⟩
  · have := (hmin e he).trans hle
    obtain ⟨x, hx, rfl⟩ := isFinite_iff.1 fd
    obtain ⟨x', hx', rfl⟩ := isFinite_iff.1 fd'
    obtain ⟨y, hy, rfl⟩ := isFinite_iff.1 htol
    rw [Bool.or_eq_true]
    simp only [le_fin, toReal_fin] at this ⊢
    exact min_le_iff.1 this
  · have hu : (binary64 cosI acosI powI).u = 2 ^ (-(53 : ℕ) : ℤ) := rfl
    have heta := binary64_eta cosI acosI powI
    have hmx := binary64_max cosI acosI powI
    rw [Bool.or_eq_true] at h
    have hu1 : (binary64 cosI acosI powI).u ≤ 1 / 1024 := by rw [hu]; norm_num
    have hn : ((2 + 3 : ℕ) : ℝ) * (binary64 cosI acosI powI).u ≤ 1 / 4 := by rw [hu]; norm_num
    have hB : 5 / 2 * M + 1 ≤ (binary64 cosI acosI powI).max := by
      refine le_trans ?_ hmx
      norm_num at hM' ⊢
      linarith
    have tol0 : 0 ≤ tol.toReal := by
      obtain ⟨x, hx, rfl⟩ := isFinite_iff.1 fd
      obtain ⟨x', hx', rfl⟩ := isFinite_iff.1 fd'
      obtain ⟨y, hy, rfl⟩ := isFinite_iff.1 htol
      simp only [le_fin, toReal_fin] at h hmin0 ⊢
      rcases h with h | h
      · exact (le_min_iff.1 hmin0).1.trans h
      · exact (le_min_iff.1 hmin0).2.trans h
    have num := near_numbers hu heta hM tol0
    rcases h with h | h
    · obtain ⟨e, he, hle⟩ := C89_quadratic_is_linear (QuadraticBezier.new a b c) tol hM hu1 (heta.trans (by norm_num)) ha hc
        hB hn htol (by rw [i1, h]) t t0 t1
      exact ⟨e, he, hle.trans num⟩
    · have := C89_quadratic_is_linear (QuadraticBezier.new c b a) tol hM hu1 (heta.trans (by norm_num)) hc ha
        hB hn htol (by rw [i2, h]) (1 - t) (by linarith) (by linarith)
      obtain ⟨e, he, hle⟩ := this
      refine ⟨e, ?_, hle.trans num⟩
      rw [segmentDistances_comm]
      have er : (QuadraticBezier.new c b a).real.eval (1 - t)
          = (QuadraticBezier.new a b c).real.eval t := by
        refine point_ext fun i => ?_
        rw [C10_eval, C10_eval]
        simp only [QuadraticBezier.new, QuadraticBezier.real]
        ring
      rw [er] at he
      exact he

set_option maxHeartbeats 1000000 in
theorem spline_numbers {F : FloatFormat} (hu : F.u = 2 ^ (-(53 : ℕ) : ℤ))
    (heps : F.epsilon = 2 ^ (1 - (53 : ℕ) : ℤ)) (heta : F.eta ≤ 1 / 10 ^ 60) (hmx : 10 ^ 60 ≤ F.max)
    {M w : ℝ} (hM : 0 ≤ M) (hM' : M ≤ 10 ^ 9) (hw : 1 ≤ w) {M' E : ℝ}
    (eM' : M' = (1 + F.u) * (2 * M) + F.eta)
    (eE : E = ((1 + F.u) ^ 2 * (1 + F.u + F.eta)) ^ 3 * (M' + (3 : ℕ) * (3 * (1 + F.u) * F.eta)) - M'
      + (3 : ℕ) * ((2 * F.epsilon / w + 7 * F.u) * (2 * M'))) :
    F.u ≤ 1 / 1024 ∧ F.eta ≤ F.epsilon * F.u ∧
    ((1 + F.u) ^ 2 * (1 + F.u + F.eta)) ^ 3 * (M' + (3 : ℕ) * (3 * (1 + F.u) * F.eta)) ≤ F.max ∧
    (1 + F.u) * (M + (E + (2 * F.u * M + F.eta))) + F.eta ≤ F.max ∧
    (1 + F.u) * (E + (2 * F.u * M + F.eta)) + F.u * M + F.eta ≤ 2 / 10 ^ 14 * M + 1 / 10 ^ 40 := by
  have e0 := F.eta_nonneg
  have u0 := F.u_nonneg
  have u1 : F.u ≤ 112 / 10 ^ 18 := by rw [hu]; norm_num
  have ue : 2 * F.epsilon + 7 * F.u ≤ 123 / 10 ^ 17 := by rw [heps, hu]; norm_num
  have g1 : (1 + F.u) ^ 2 * (1 + F.u + F.eta) ≤ 1 + 34 / 10 ^ 17 := by
    refine le_trans (mul_le_mul_of_nonneg_left (show 1 + F.u + F.eta ≤ 1 + F.u + 1 / 10 ^ 60 by linarith)
      (by positivity)) ?_
    rw [hu]; norm_num
  have g3 : ((1 + F.u) ^ 2 * (1 + F.u + F.eta)) ^ 3 ≤ 1 + 11 / 10 ^ 16 :=
    (pow_le_pow_left₀ (by positivity) g1 3).trans (by norm_num)
  have g3' : 1 ≤ ((1 + F.u) ^ 2 * (1 + F.u + F.eta)) ^ 3 :=
    one_le_pow₀ (one_le_mul_of_one_le_of_one_le (one_le_pow₀ (by linarith)) (by linarith))
  set G := ((1 + F.u) ^ 2 * (1 + F.u + F.eta)) ^ 3 with hG
  have uM : F.u * M ≤ 112 / 10 ^ 18 * M := mul_le_mul_of_nonneg_right u1 hM
  have m0 : 0 ≤ M' := by rw [eM']; positivity
  have m1 : M' ≤ 21 / 10 * M + 1 / 10 ^ 60 := by
    rw [eM']
    have : (112 : ℝ) / 10 ^ 18 * M ≤ 1 / 20 * M := mul_le_mul_of_nonneg_right (by norm_num) hM
    linarith
  have c1 : ((3 : ℕ) : ℝ) * (3 * (1 + F.u) * F.eta) ≤ 18 / 10 ^ 60 := by
    have : (1 + F.u) * F.eta ≤ 2 * (1 / 10 ^ 60) :=
      mul_le_mul (by linarith [u1, show (112 : ℝ) / 10 ^ 18 ≤ 1 by norm_num]) heta e0 (by norm_num)
    push_cast
    linarith
  have c0 : 0 ≤ ((3 : ℕ) : ℝ) * (3 * (1 + F.u) * F.eta) := by positivity
  set c := ((3 : ℕ) : ℝ) * (3 * (1 + F.u) * F.eta) with hc
  have hsum : M' + c ≤ 21 / 10 * M + 19 / 10 ^ 60 := by linarith
  have p1 : (G - 1) * (M' + c) ≤ 11 / 10 ^ 16 * (21 / 10 * M + 19 / 10 ^ 60) :=
    mul_le_mul (by linarith) hsum (by linarith) (by norm_num)
  have hdiv : 2 * F.epsilon / w ≤ 2 * F.epsilon :=
    div_le_self (by linarith [F.epsilon_pos]) hw
  have hdiv0 : 0 ≤ 2 * F.epsilon / w := by
    have := F.epsilon_pos
    positivity
  have p2 : (2 * F.epsilon / w + 7 * F.u) * (2 * M')
      ≤ 123 / 10 ^ 17 * (2 * (21 / 10 * M + 1 / 10 ^ 60)) :=
    mul_le_mul (by linarith) (by linarith) (by linarith) (by norm_num)
  have p0 : 0 ≤ (2 * F.epsilon / w + 7 * F.u) * (2 * M') := by positivity
  have hE0 : 0 ≤ E := by
    rw [eE]
    have : 0 ≤ (G - 1) * (M' + c) := mul_nonneg (by linarith) (by linarith)
    push_cast
    nlinarith
  have hE1 : E ≤ 18 / 10 ^ 15 * M + 1 / 10 ^ 50 := by
    have e : E = (G - 1) * (M' + c) + c + 3 * ((2 * F.epsilon / w + 7 * F.u) * (2 * M')) := by
      rw [eE]; push_cast; ring
    rw [e]
    norm_num at p1 p2 c1 ⊢
    linarith
  have hX : E + (2 * F.u * M + F.eta) ≤ 19 / 10 ^ 15 * M + 1 / 10 ^ 49 := by
    norm_num at hE1 uM heta ⊢
    linarith
  have hX0 : 0 ≤ E + (2 * F.u * M + F.eta) := by positivity
  have u2 : 1 + F.u ≤ 1 + 1 / 10 ^ 10 := by
    have : (112 : ℝ) / 10 ^ 18 ≤ 1 / 10 ^ 10 := by norm_num
    linarith
  have q1 : (1 + F.u) * (E + (2 * F.u * M + F.eta))
      ≤ (1 + 1 / 10 ^ 10) * (19 / 10 ^ 15 * M + 1 / 10 ^ 49) :=
    mul_le_mul u2 hX hX0 (by norm_num)
  refine ⟨u1.trans (by norm_num), ?_, ?_, ?_, ?_⟩
  · rw [heps, hu]
    exact heta.trans (by norm_num)
  · refine le_trans (b := 10 ^ 11) ?_ (le_trans (by norm_num) hmx)
    have : G * (M' + c) = (G - 1) * (M' + c) + (M' + c) := by ring
    rw [this]
    norm_num at p1 hsum hM' ⊢
    linarith
  · refine le_trans (b := 10 ^ 11) ?_ (le_trans (by norm_num) hmx)
    have : (1 + F.u) * (M + (E + (2 * F.u * M + F.eta)))
        = M + F.u * M + (1 + F.u) * (E + (2 * F.u * M + F.eta)) := by ring
    rw [this]
    norm_num at q1 hM' uM heta ⊢
    linarith
  · norm_num at q1 uM heta ⊢
    linarith

/-- **C136** in numbers: cubic `f64` splines of every kind, with coordinates up to `M ≤ 10^9`, on a span
of the knot vector of length at least 1: the result differs from the B-spline by at most
`2·10⁻¹⁴ M + 10⁻⁴⁰` in each coordinate. -/
theorem C136_binary64_bspline {knots : Arr (Fl (binary64 cosI acosI powI)) K}
    {ps : Arr (PointN (Fl (binary64 cosI acosI powI)) n) C}
    {b₀ : BSpline (Fl (binary64 cosI acosI powI)) (PointN (Fl (binary64 cosI acosI powI)) n) K C 3}
    (h : BSpline.new knots ps = .ok b₀) (hK : 0 < K)
    (extra : ℕ → PointN (Fl (binary64 cosI acosI powI)) n) (hk : FiniteKnots knots)
    (hspan : ∀ i j : Fin K, (knots j).toReal - (knots i).toReal ≤ (binary64 cosI acosI powI).max)
    {t M : ℝ} (hM : 0 ≤ M) (hM' : M ≤ 10 ^ 9)
    (ht : t ∈ (binary64 cosI acosI powI).grid ∧ |t| ≤ (binary64 cosI acosI powI).max) {k : ℕ}
    (hDk : 3 ≤ k) (hkC : k < C)
    (ht1 : knotAt (fun i => (knots i).toReal) k ≤ t)
    (ht2 : t < knotAt (fun i => (knots i).toReal) (k + 1))
    (hlen : 1 ≤ knotAt (fun i => (knots i).toReal) (k + 1) - knotAt (fun i => (knots i).toReal) k)
    (hps : ∀ i, BoundedBy M (ps i)) (hex : ∀ i, BoundedBy M (extra i)) :
    ∃ (b : BSpline (Fl (binary64 cosI acosI powI)) (PointN (Fl (binary64 cosI acosI powI)) n)
        (K + 3) (C + 3) 3) (q : PointN (Fl (binary64 cosI acosI powI)) n),
      BSpline.new (paddedFloats 3 hK knots)
        (fun i => paddedPoints 3 extra ps i - ps ⟨k, hkC⟩) = .ok b ∧
      b.eval (fin t ht) = .ok q ∧
      ∀ c : Fin n, ((q + ps ⟨k, hkC⟩).coords c).IsFinite ∧
        |((q + ps ⟨k, hkC⟩).coords c).toReal
            - splineCoord 3 (fun i => (knots i).toReal) (fun i => realPoint (ps i)) t c|
          ≤ 2 / 10 ^ 14 * M + 1 / 10 ^ 40 := by
  obtain ⟨h1, h2, h3, h4, h5⟩ := spline_numbers (F := binary64 cosI acosI powI) rfl rfl
    (binary64_eta cosI acosI powI) (binary64_max cosI acosI powI) hM hM' hlen rfl rfl
  obtain ⟨b, q, hb, hq, hc⟩ := C136_float_bspline_any_kind h hK extra hk hspan h1 h2 hM ht hDk hkC ht1 ht2
    hps hex rfl rfl h3 h4
  exact ⟨b, q, hb, hq, fun c => ⟨(hc c).1, (hc c).2.trans h5⟩⟩

/-- The hypotheses of `C136_binary64_distance` hold for the segment from (0,0) to (4,0) and the point
(10,3), which projects beyond the end. -/
example : ∃ a b p : PointN (Fl (binary64 cosI acosI powI)) 2, BoundedBy 10 a ∧ BoundedBy 10 b ∧
    BoundedBy 10 p ∧ 1 ≤ pdist b.real a.real ∧
    pdist b.real a.real ^ 2 < ∑ i, ((p.coords i).toReal - (a.coords i).toReal)
      * ((b.coords i).toReal - (a.coords i).toReal) := by
  refine ⟨smallPoint cosI acosI powI 0 0, smallPoint cosI acosI powI 4 0, smallPoint cosI acosI powI 10 3,
    smallPoint_bounded _ _ _ _ _, smallPoint_bounded _ _ _ _ _, smallPoint_bounded _ _ _ _ _, ?_, ?_⟩
  · rw [smallPoint_dist]; norm_num
  · rw [smallPoint_dist]
    simp only [Fin.sum_univ_two, smallPoint_zero, smallPoint_one]
    norm_num

/-- Those of `C136_binary64_bspline` hold for the unclamped cubic spline with the knots 0, 1, ..., 7,
between the knots 3 and 4. -/
example : ∃ (knots : Arr (Fl (binary64 cosI acosI powI)) 8)
    (ps : Arr (PointN (Fl (binary64 cosI acosI powI)) 2) 4)
    (b : BSpline (Fl (binary64 cosI acosI powI)) (PointN (Fl (binary64 cosI acosI powI)) 2) 8 4 3),
    BSpline.new knots ps = .ok b ∧ FiniteKnots knots ∧ (∀ i, BoundedBy 10 (ps i)) ∧ ps 0 ≠ ps 3 ∧
    (∀ i j : Fin 8, (knots j).toReal - (knots i).toReal ≤ (binary64 cosI acosI powI).max) ∧
    knotAt (fun i => (knots i).toReal) 3 = 3 ∧ knotAt (fun i => (knots i).toReal) (3 + 1) = 4 := by
  have ok : ∀ i : Fin 8, (((i : ℕ) : ℝ) ∈ (binary64 cosI acosI powI).grid ∧
      |((i : ℕ) : ℝ)| ≤ (binary64 cosI acosI powI).max) := fun i => by
    have := FloatFormat.int_ok (F := binary64 cosI acosI powI) ((i : ℕ) : ℤ)
      (by rw [abs_of_nonneg (by positivity)]; have := i.2; omega)
    simpa using this
  have hk : FiniteKnots (fun i : Fin 8 => (fin ((i : ℕ) : ℝ) (ok i) : Fl (binary64 cosI acosI powI))) :=
    fun i => trivial
  refine ⟨fun i => fin ((i : ℕ) : ℝ) (ok i),
    ![smallPoint cosI acosI powI 0 0, smallPoint cosI acosI powI 1 2, smallPoint cosI acosI powI 3 3,
      smallPoint cosI acosI powI 5 0], _,
    (new_generic _ _ _).2 ⟨by norm_num, by norm_num, (anyDecrease_finiteKnots hk).2 fun i j hij => ?_, rfl⟩,
    hk, fun i => ?_, fun e => ?_, fun i j => ?_, ?_, ?_⟩
  · simp only [toReal_fin]
    exact_mod_cast hij
  · fin_cases i <;> exact smallPoint_bounded _ _ _ _ _
  · have := congrArg (fun p => (p.coords 0).toReal) e
    simp only [Matrix.cons_val_zero, Matrix.cons_val] at this
    rw [smallPoint_zero, smallPoint_zero] at this
    norm_num at this
  · simp only [toReal_fin]
    have h1 : ((j : ℕ) : ℝ) ≤ 8 := by exact_mod_cast j.2.le
    have h2 : (0 : ℝ) ≤ ((i : ℕ) : ℝ) := by positivity
    linarith [(binary64 cosI acosI powI).max_ge]
  · rw [knotAt_lt _ (by norm_num)]
    simp [toReal_fin]
  · rw [knotAt_lt _ (by norm_num)]
    simp [toReal_fin]

end Binary64

end Stroke
