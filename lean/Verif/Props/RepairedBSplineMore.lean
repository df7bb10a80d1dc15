import Verif.Props.RepairedBSpline
import Verif.Props.BSplineReparam
import Verif.Props.BSplineMaps
import Verif.Props.BSplinePieces
import Verif.Props.BSplineJoints
import Verif.Props.ArcLengthShape
import Verif.Lemmas.CoxDeBoorContinuity

/-!
# The repaired B-spline: units, maps, end points, continuity, Bezier curves (C121)
-/

set_option linter.unusedSectionVars false

open Filter Topology Polynomial

namespace Stroke

variable {P : Type} [Point ℝ P] [LawfulPoint P] {K C D : ℕ}
variable {knots : Arr ℝ K} {ps : Arr P C} {b : BSpline ℝ P K C D}

/-- **C121**: the repaired evaluation does not depend on the units of the parameter, for every
constructed spline and every parameter, inside the domain or outside (the statement of C79). -/
theorem C121_bspline_units {r : ℝ} (hr : 0 < r) (c : ℝ) (h : BSpline.new knots ps = .ok b) :
    ∃ b' : BSpline ℝ P K C D, BSpline.new (fun i => r * knots i + c) ps = .ok b' ∧
      ∀ t, b'.evalFixed (r * t + c) = b.evalFixed t := by
  obtain ⟨v1, v2, v3⟩ := ((new_ok_iff _ _ _).1 h).1
  obtain ⟨b', hb'⟩ : ∃ b' : BSpline ℝ P K C D, BSpline.new (fun i => r * knots i + c) ps = .ok b' :=
    ⟨_, (new_ok_iff _ _ _).2 ⟨valid_reparam hr ⟨v1, v2, v3⟩, rfl⟩⟩
  refine ⟨b', hb', fun t => ?_⟩
  have ek : ∀ i, i < K → knotAt (fun i => r * knots i + c) i = r * knotAt knots i + c := by
    intro i hi
    rw [knotAt_lt _ hi, knotAt_lt _ hi]
  have lt_iff : ∀ x y : ℝ, r * x + c < r * y + c ↔ x < y := fun x y => by
    rw [add_lt_add_iff_right, mul_lt_mul_iff_right₀ hr]
  by_cases ho : t < knotAt knots D ∨ knotAt knots C < t
  · rw [C121_bspline_outside h ho, C121_bspline_outside hb']
    rw [ek _ (by omega), ek _ (by omega), lt_iff, lt_iff]
    exact ho
  · rw [not_or, not_lt, not_lt] at ho
    rcases eq_or_lt_of_le ho.2 with he | hl
    · rw [he, C121_bspline_end h]
      have := C121_bspline_end hb'
      rwa [ek _ (by omega)] at this
    · obtain ⟨q, hq, hc⟩ := C121_bspline h ho.1 hl
      obtain ⟨q', hq', hc'⟩ := C121_bspline hb' (t := r * t + c)
        (by
          rw [ek _ (by omega)]
          have := mul_le_mul_of_nonneg_left ho.1 hr.le
          linarith)
        (by rw [ek _ (by omega), lt_iff]; exact hl)
      rw [hq, hq']
      congr 1
      apply point_ext
      intro i
      rw [hc, hc']
      unfold splineCoord
      refine Finset.sum_congr rfl fun j _ => ?_
      rw [coxDeBoor_congr (K := K) (w := fun m => r * knotAt knots m + c) (fun m hm => ek m hm) D j.val
        (by have := j.2; omega), coxDeBoor_reparam hr c D j.val t]

/-- **C121**: the repaired evaluation commutes with affine maps, translations among them (the
statement of C80). -/
theorem C121_bspline_affine {Q : Type} [Point ℝ Q] [LawfulPoint Q] {f : P → Q} (hf : IsAffine f)
    (h : BSpline.new knots ps = .ok b) :
    ∃ b' : BSpline ℝ Q K C D, BSpline.new knots (fun i => f (ps i)) = .ok b' ∧
      ∀ t, b'.evalFixed t = (b.evalFixed t).mapOk f := by
  obtain ⟨v1, v2, v3⟩ := ((new_ok_iff _ _ _).1 h).1
  obtain ⟨b', hb'⟩ := (C43_accepts (D := D) knots (fun i => f (ps i))).2 ⟨v1, v2, v3⟩
  refine ⟨b', hb', fun t => ?_⟩
  by_cases ho : t < knotAt knots D ∨ knotAt knots C < t
  · rw [C121_bspline_outside h ho, C121_bspline_outside hb' ho]
    rfl
  · rw [not_or, not_lt, not_lt] at ho
    rcases eq_or_lt_of_le ho.2 with he | hl
    · rw [he, C121_bspline_end h, C121_bspline_end hb']
      rfl
    · obtain ⟨q, hq, hc⟩ := C121_bspline h ho.1 hl
      obtain ⟨q', hq', hc'⟩ := C121_bspline hb' ho.1 hl
      rw [hq, hq']
      show _ = Outcome.ok (f q)
      congr 1
      apply point_ext
      intro i
      obtain ⟨m, e, hm⟩ := hf i
      rw [hc', hm]
      simp only [splineCoord, hc, hm, mul_add, Finset.sum_add_distrib, Finset.mul_sum]
      have hs : ∑ k : Fin C, coxDeBoor (knotAt knots) D k.val t = 1 := by
        obtain ⟨k, hDk, hkC, hk1, hk2⟩ := exists_span ⟨v1, v2, v3⟩ ho.1 hl
        have hmono := fun i j (hij : i ≤ j) (hj : j < K) => mono_knotAt v3 hij hj
        have := coxDeBoor_sum_span hmono hDk hkC v2 hk1 hk2 (fun _ => 1)
        simp only [mul_one, one_mul] at this
        rw [Fin.sum_univ_eq_sum_range (fun i => coxDeBoor (knotAt knots) D i t) C, this]
        exact coxDeBoor_sum hmono hDk (by omega) hk1 hk2
      rw [← Finset.sum_mul, hs, one_mul, Finset.sum_comm]
      congr 1
      refine Finset.sum_congr rfl fun j _ => Finset.sum_congr rfl fun k _ => ?_
      ring

/-- **C121**: the repaired length is the same after a rigid motion and scales with a similarity (the
statement of C99 that is false of the code). -/
theorem C121_bspline_arclen_similarity {Q : Type} [Point ℝ Q] [LawfulPoint Q] {f : P → Q} {r : ℝ}
    (hf : IsSimilarity f r) (h : BSpline.new knots ps = .ok b) :
    ∃ b' : BSpline ℝ Q K C D, BSpline.new knots (fun i => f (ps i)) = .ok b' ∧
      ∀ n : ℕ, ∃ l, b.arclenFixed n = some l ∧ b'.arclenFixed n = some (r * l) := by
  obtain ⟨b', hb', he⟩ := C121_bspline_affine hf.1 h
  refine ⟨b', hb', fun n => ?_⟩
  obtain ⟨v1, v2, v3⟩ := ((new_ok_iff _ _ _).1 h).1
  have hle : knotAt knots D ≤ knotAt knots C := mono_knotAt v3 (by omega) (by omega)
  obtain ⟨g, hg, hl⟩ := C121_bspline_arclen h
  obtain ⟨g', hg', hl'⟩ := C121_bspline_arclen hb'
  refine ⟨_, hl n, ?_⟩
  rw [hl' n]
  congr 1
  have key : ∀ t, knotAt knots D ≤ t → t ≤ knotAt knots C → g' t = f (g t) := by
    intro t h1 h2
    have := he t
    rw [hg t h1 h2, hg' t h1 h2] at this
    exact Outcome.ok.inj this
  unfold polylineLength
  rw [Finset.mul_sum]
  refine Finset.sum_congr rfl fun i hi => ?_
  have hin : i < n := (Finset.mem_Ico.1 hi).2
  have n0 : (0 : ℝ) < n := by exact_mod_cast (by omega : 0 < n)
  have hw : 0 ≤ knotAt knots C - knotAt knots D := sub_nonneg.2 hle
  have kk : ∀ j : ℕ, j ≤ n → g' (knotAt knots D + (j : ℝ) / n * (knotAt knots C - knotAt knots D))
      = f (g (knotAt knots D + (j : ℝ) / n * (knotAt knots C - knotAt knots D))) := by
    intro j hj
    have i1 : (j : ℝ) / n ≤ 1 := by
      rw [div_le_one n0]; exact_mod_cast hj
    have i0 : 0 ≤ (j : ℝ) / n := by positivity
    exact key _ (by nlinarith) (by nlinarith)
  beta_reduce
  rw [kk i hin.le, kk (i + 1) hin, hf.2]

/-- **C121**: a spline whose first `D + 1` knots coincide starts at its first control point (the
statement of C49, for every degree). -/
theorem C121_bspline_start (h : BSpline.new knots ps = .ok b)
    (hf : knotAt knots 0 = knotAt knots D) (hlt : knotAt knots D < knotAt knots (D + 1)) :
    b.evalFixed (knotAt knots D) = .ok (ps ⟨0, by
      have := ((new_ok_iff _ _ _).1 h).1.1; omega⟩) := by
  obtain ⟨v1, v2, v3⟩ := ((new_ok_iff _ _ _).1 h).1
  have hm := fun i j (hij : i ≤ j) (hj : j < K) => mono_knotAt v3 hij hj
  obtain ⟨q, hq, hc⟩ := C121_bspline h le_rfl
    (hlt.trans_le (hm (D + 1) C (by omega) (by omega)))
  rw [hq]
  congr 1
  apply point_ext
  intro i
  rw [hc, splineCoord]
  have full : coxDeBoor (knotAt knots) D 0 (knotAt knots D) = 1 := by
    refine coxDeBoor_full D 0 _ (fun j hj => ?_) (by rwa [Nat.zero_add])
    rw [Nat.zero_add]
    exact le_antisymm (hm _ _ hj (by omega)) (by rw [← hf]; exact hm _ _ (by omega) (by omega))
  have hs : ∑ k : Fin C, coxDeBoor (knotAt knots) D k.val (knotAt knots D) = 1 := by
    have := coxDeBoor_sum_span hm (k := D) le_rfl v1 v2 (le_refl (knotAt knots D)) hlt (fun _ => 1)
    simp only [mul_one, one_mul] at this
    rw [Fin.sum_univ_eq_sum_range (fun i => coxDeBoor (knotAt knots) D i (knotAt knots D)) C, this]
    exact coxDeBoor_sum hm le_rfl (by omega) le_rfl hlt
  have hz : ∀ k : Fin C, k ≠ ⟨0, by omega⟩ → coxDeBoor (knotAt knots) D k.val (knotAt knots D) = 0 := by
    have hsplit := Finset.add_sum_erase Finset.univ
      (fun k : Fin C => coxDeBoor (knotAt knots) D k.val (knotAt knots D))
      (Finset.mem_univ (⟨0, by omega⟩ : Fin C))
    rw [hs] at hsplit
    have full' : coxDeBoor (knotAt knots) D ((⟨0, by omega⟩ : Fin C)).val (knotAt knots D) = 1 := full
    rw [full'] at hsplit
    have h0 : ∑ k ∈ Finset.univ.erase (⟨0, by omega⟩ : Fin C),
        coxDeBoor (knotAt knots) D k.val (knotAt knots D) = 0 := by linarith
    rw [Finset.sum_eq_zero_iff_of_nonneg (fun k _ => coxDeBoor_nonneg hm D k.val
      (by have := k.2; omega))] at h0
    intro k hk
    exact h0 k (Finset.mem_erase.2 ⟨hk, Finset.mem_univ _⟩)
  rw [Finset.sum_eq_single (⟨0, by omega⟩ : Fin C)]
  · rw [show ((⟨0, by omega⟩ : Fin C)).val = 0 from rfl, full, one_mul]
  · intro k _ hk
    rw [hz k hk, zero_mul]
  · simp

/-- **C121**: with the knots 0 ... 0 1 ... 1 the repaired evaluation is that of the Bezier curve with
the same control points, for every degree and every parameter of [0, 1] (the statement of C82). -/
theorem C121_bspline_bezier (D : ℕ) (ps : Arr P (D + 1)) :
    ∃ b : BSpline ℝ P (D + 1 + D + 1) (D + 1) D, BSpline.new (bezierKnots D) ps = .ok b ∧
      ∀ t : ℝ, 0 ≤ t → t ≤ 1 → ∃ q, b.evalFixed t = .ok q ∧ (Bezier.new ps).eval t = some q := by
  obtain ⟨b, hb⟩ := (C43_accepts (D := D) _ ps).2 (valid_bezier D)
  refine ⟨b, hb, fun t h0 h1 => ?_⟩
  have k0 : knotAt (bezierKnots D) D = 0 := by rw [knotAt_bezier (by omega), if_pos le_rfl]
  have k1 : knotAt (bezierKnots D) (D + 1) = 1 := by
    rw [knotAt_bezier (by omega), if_neg (by omega)]
  rcases eq_or_lt_of_le h1 with he | hl
  · refine ⟨ps ⟨D, by omega⟩, ?_, ?_⟩
    · have := C121_bspline_end hb
      rw [k1] at this
      rw [he]
      exact this
    · rw [he]
      exact (C31_endpoints (Bezier.new ps) (by omega)).2
  · obtain ⟨q, hq, hc⟩ := C121_bspline hb (t := t) (by rwa [k0]) (by rwa [k1])
    obtain ⟨q', hq', hc'⟩ := C30_eval (Bezier.new ps) (by omega) t
    have e : q = q' := by
      apply point_ext
      intro i
      rw [hc, hc']
      unfold splineCoord bezierCoord
      refine Finset.sum_congr rfl fun j _ => ?_
      rw [coxDeBoor_bezier h0 hl D le_rfl j.val (by have := j.2; omega), if_pos (by omega),
        show j.val + D - D = j.val by omega, show D + 1 - 1 = D by omega]
      rfl
    exact ⟨q, hq, by rw [e]; exact hq'⟩

/-- **C121**: on every span the coordinates of the repaired evaluation are polynomials of degree at
most `D`, and they fit together: if the last `D + 1` knots coincide and no knot inside the domain has
multiplicity above `D`, the curve is continuous on the whole domain, both ends included (the statement
of C81). -/
theorem C121_bspline_continuous (h : BSpline.new knots ps = .ok b)
    (hend : knotAt knots C = knotAt knots (C + D)) (hlast : knotAt knots (C - 1) < knotAt knots C)
    (hmult : ∀ i, i + D < K → knotAt knots D < knotAt knots i → knotAt knots i < knotAt knots C →
      knotAt knots i < knotAt knots (i + D)) :
    ∃ f : ℝ → P, (∀ t, knotAt knots D ≤ t → t ≤ knotAt knots C → b.evalFixed t = .ok (f t)) ∧
      (∀ c, ContinuousOn (fun t => coord (f t) c) (Set.Icc (knotAt knots D) (knotAt knots C))) ∧
      ∀ k, D ≤ k → k < C → ∃ g : ℕ → ℝ[X], (∀ c, (g c).natDegree ≤ D) ∧
        ∀ t, knotAt knots k ≤ t → t < knotAt knots (k + 1) → ∀ c, coord (f t) c = (g c).eval t := by
  obtain ⟨v1, v2, v3⟩ := ((new_ok_iff _ _ _).1 h).1
  have hm := fun i j (hij : i ≤ j) (hj : j < K) => mono_knotAt v3 hij hj
  set u := knotAt knots with hu
  have ex : ∀ t, ∃ q : P, (u D ≤ t → t ≤ u C → b.evalFixed t = .ok q) ∧
      (u D ≤ t → t < u C → ∀ c, coord q c = splineCoord D knots ps t c) ∧
      (t = u C → q = ps ⟨C - 1, by omega⟩) := by
    intro t
    by_cases ht : u D ≤ t ∧ t < u C
    · obtain ⟨q, hq, hc⟩ := C121_bspline h ht.1 ht.2
      exact ⟨q, fun _ _ => hq, fun _ _ => hc, fun e => absurd e ht.2.ne⟩
    · by_cases he : t = u C
      · refine ⟨ps ⟨C - 1, by omega⟩, fun _ _ => by rw [he]; exact C121_bspline_end h,
          fun a b => absurd ⟨a, b⟩ ht, fun _ => rfl⟩
      · exact ⟨Point.default, fun a b => absurd ⟨a, lt_of_le_of_ne b he⟩ ht,
          fun a b => absurd ⟨a, b⟩ ht, fun e => absurd e he⟩
  choose f hf1 hf2 hf3 using ex
  refine ⟨f, hf1, fun c => ?_, fun k hDk hkC => ?_⟩
  · intro x hx
    have hsum : ∀ s : Set ℝ, (∀ i : Fin C, ContinuousWithinAt (coxDeBoor u D i.val) s x) →
        ContinuousWithinAt (fun t => splineCoord D knots ps t c) s x := by
      intro s hs
      unfold splineCoord
      exact tendsto_finsetSum _ fun i _ => (hs i).mul continuousWithinAt_const
    rcases eq_or_lt_of_le hx.2 with he | hl
    · -- the end of the domain
      have hxu : x = u C := he
      have hlim : Tendsto (fun t => splineCoord D knots ps t c) (𝓝[<] x)
          (𝓝 (coord (ps ⟨C - 1, by omega⟩) c)) := by
        have each : ∀ i : Fin C, Tendsto (fun t => coxDeBoor u D i.val t * coord (ps i) c) (𝓝[<] x)
            (𝓝 (if i = ⟨C - 1, by omega⟩ then coord (ps i) c else 0)) := by
          intro i
          by_cases hi : i = ⟨C - 1, by omega⟩
          · rw [if_pos hi]
            have hv : i.val = C - 1 := by rw [hi]
            have hlt : u (C - 1) < x := by rw [hxu]; exact hlast
            have hcont : ContinuousAt (fun t : ℝ => ((t - u (C - 1)) / (x - u (C - 1))) ^ D
                * coord (ps i) c) x := by fun_prop
            have hT := hcont.tendsto.mono_left (nhdsWithin_le_nhds (s := Set.Iio x))
            simp only [div_self (show x - u (C - 1) ≠ 0 by linarith), one_pow, one_mul] at hT
            refine hT.congr' ?_
            filter_upwards [self_mem_nhdsWithin, mem_nhdsWithin_of_mem_nhds (lt_mem_nhds hlt)]
              with t b1 b2
            have b1' : t < x := b1
            rw [hv, coxDeBoor_trail D (C - 1) x (u (C - 1)) (fun j ja jb => by
              rw [hxu]
              refine le_antisymm ?_ (hm _ _ (by omega) (by omega))
              rw [hend]
              exact hm _ _ (by omega) (by omega)) rfl hlt t b2.le, if_neg (not_le.2 b1')]
          · rw [if_neg hi]
            have hv : i.val < C - 1 := by
              have := i.2
              rcases Nat.lt_or_ge i.val (C - 1) with h' | h'
              · exact h'
              · exact absurd (Fin.ext (by simp only; omega)) hi
            have hz : ∀ j, j ≤ C - 1 → u j < x := fun j hj => by
              rw [hxu]; exact (hm j (C - 1) hj (by omega)).trans_lt hlast
            have hcont := coxDeBoor_continuousAt_of hm x D i.val (by omega)
              (fun e => absurd e.1 (hz _ (by omega)).ne)
              (fun e => absurd e.1 (hz _ (by omega)).ne)
            have h0 : coxDeBoor u D i.val x = 0 := by
              refine coxDeBoor_support hm D i.val (by omega) fun e => ?_
              have e2 := e.2
              have : u (i.val + D + 1) ≤ x := by
                rw [hxu, hend]
                exact hm _ _ (by omega) (by omega)
              linarith
            have hT := (hcont.tendsto.mono_left (nhdsWithin_le_nhds (s := Set.Iio x))).mul_const
              (coord (ps i) c)
            rwa [h0, zero_mul] at hT
        have hT := tendsto_finsetSum Finset.univ fun i _ => each i
        rw [Finset.sum_ite_eq' Finset.univ (⟨C - 1, by omega⟩ : Fin C), if_pos (Finset.mem_univ _)] at hT
        exact hT
      rw [show Set.Icc (u D) (u C) = Set.Icc (u D) x by rw [hxu]]
      have hDx : u D < x := by rw [hxu]; exact (hm D (C - 1) (by omega) (by omega)).trans_lt hlast
      have hset : Set.Icc (u D) x = insert x (Set.Ico (u D) x) := (Set.Ico_insert_right hDx.le).symm
      rw [hset, continuousWithinAt_insert_self]
      unfold ContinuousWithinAt
      beta_reduce
      rw [hf3 x hxu]
      refine (hlim.mono_left (nhdsWithin_mono _ Set.Ico_subset_Iio_self)).congr' ?_
      filter_upwards [self_mem_nhdsWithin] with t ht
      rw [hf2 t ht.1 (by rw [← hxu]; exact ht.2)]
    · have heq : ∀ᶠ t in 𝓝[Set.Icc (u D) (u C)] x, coord (f t) c = splineCoord D knots ps t c := by
        filter_upwards [self_mem_nhdsWithin, mem_nhdsWithin_of_mem_nhds (gt_mem_nhds hl)] with t a1 a2
        exact hf2 t a1.1 a2 c
      refine ContinuousWithinAt.congr_of_eventuallyEq ?_ heq (hf2 x hx.1 hl c)
      rcases eq_or_lt_of_le hx.1 with he | hg
      · refine hsum _ fun i => (coxDeBoor_continuousWithinAt x D i.val).mono ?_
        rw [← he]
        exact Set.Icc_subset_Ici_self
      · refine hsum _ fun i => (coxDeBoor_continuousAt_of hm x D i.val (by have := i.2; omega)
          ?_ ?_).continuousWithinAt
        · rintro ⟨e1, e2⟩
          have := hmult i.val (by have := i.2; omega) (by rw [e1]; exact hg) (by rw [e1]; exact hl)
          rw [e1, e2] at this
          exact lt_irrefl _ this
        · rintro ⟨e1, e2⟩
          have := hmult (i.val + 1) (by have := i.2; omega) (by rw [e1]; exact hg)
            (by rw [e1]; exact hl)
          rw [e1, show i.val + 1 + D = i.val + D + 1 by omega, e2] at this
          exact lt_irrefl _ this
  · choose G hG1 hG2 using fun i : Fin C =>
      coxDeBoor_polynomial hm (show k + 1 < K by omega) D i.val (by have := i.2; omega)
    refine ⟨fun c => ∑ i : Fin C, G i * Polynomial.C (coord (ps i) c), fun c => ?_,
      fun t h1 h2 c => ?_⟩
    · beta_reduce
      refine natDegree_sum_le_of_forall_le _ _ fun i _ => ?_
      exact (natDegree_mul_C_le _ _).trans (hG1 i)
    · rw [hf2 t ((hm D k hDk (by omega)).trans h1) (h2.trans_le (hm (k + 1) C (by omega) (by omega))),
        splineCoord]
      simp only [eval_mul, Polynomial.eval_C, Polynomial.eval_finsetSum]
      exact Finset.sum_congr rfl fun i _ => by rw [← hu, hG2 i t h1 h2]

/-- Test: a spline of degree 2 with a double knot inside meets all hypotheses used above. -/
example (ps : Arr (PointN ℝ 2) 5) : ∃ b : BSpline ℝ (PointN ℝ 2) 8 5 2,
    BSpline.new ![0, 0, 0, 1, 1, 2, 2, 2] ps = .ok b ∧
    knotAt (![0, 0, 0, 1, 1, 2, 2, 2] : Fin 8 → ℝ) 0
      = knotAt (![0, 0, 0, 1, 1, 2, 2, 2] : Fin 8 → ℝ) 2 ∧
    knotAt (![0, 0, 0, 1, 1, 2, 2, 2] : Fin 8 → ℝ) 2
      < knotAt (![0, 0, 0, 1, 1, 2, 2, 2] : Fin 8 → ℝ) (2 + 1) ∧
    knotAt (![0, 0, 0, 1, 1, 2, 2, 2] : Fin 8 → ℝ) 5
      = knotAt (![0, 0, 0, 1, 1, 2, 2, 2] : Fin 8 → ℝ) (5 + 2) ∧
    knotAt (![0, 0, 0, 1, 1, 2, 2, 2] : Fin 8 → ℝ) (5 - 1)
      < knotAt (![0, 0, 0, 1, 1, 2, 2, 2] : Fin 8 → ℝ) 5 ∧
    ∀ i, i + 2 < 8 → knotAt (![0, 0, 0, 1, 1, 2, 2, 2] : Fin 8 → ℝ) 2
        < knotAt (![0, 0, 0, 1, 1, 2, 2, 2] : Fin 8 → ℝ) i →
      knotAt (![0, 0, 0, 1, 1, 2, 2, 2] : Fin 8 → ℝ) i
        < knotAt (![0, 0, 0, 1, 1, 2, 2, 2] : Fin 8 → ℝ) 5 →
      knotAt (![0, 0, 0, 1, 1, 2, 2, 2] : Fin 8 → ℝ) i
        < knotAt (![0, 0, 0, 1, 1, 2, 2, 2] : Fin 8 → ℝ) (i + 2) := by
  have v : ValidSpline 5 2 (![0, 0, 0, 1, 1, 2, 2, 2] : Fin 8 → ℝ) := by
    refine ⟨by norm_num, rfl, fun i j hij => ?_⟩
    fin_cases i <;> fin_cases j <;> simp at hij ⊢
  obtain ⟨b, hb⟩ := (C43_accepts (D := 2) _ ps).2 v
  refine ⟨b, hb, by simp [knotAt], by simp [knotAt], by simp [knotAt], by simp [knotAt], ?_⟩
  intro i hi
  have hi' : i < 6 := by omega
  interval_cases i <;> simp [knotAt]

/-- Test: a shift of the plane is an affine map, and a similarity with factor 1. -/
example : IsSimilarity (fun p : PointN ℝ 2 => p + pt2 2 3) 1 := by
  constructor
  · intro i
    refine ⟨fun j => if j = i then 1 else 0, coord (pt2 2 3) i, fun p => ?_⟩
    rw [coord_add]
    congr 1
    by_cases hi : i ∈ Finset.range (Point.dim (PointN ℝ 2))
    · rw [Finset.sum_eq_single i]
      · simp
      · intro j _ hj; beta_reduce; rw [if_neg hj, zero_mul]
      · intro h; exact absurd hi h
    · rw [Finset.sum_eq_zero]
      · exact coord_out _ (by simpa using hi)
      · intro j hj
        have hne : j ≠ i := by rintro rfl; exact hi hj
        beta_reduce
        rw [if_neg hne, zero_mul]
  · intro p q
    rw [one_mul]
    unfold pdist
    simp only [coord_add, add_sub_add_right_eq_sub]

end Stroke
