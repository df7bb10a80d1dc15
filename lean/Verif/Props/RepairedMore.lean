import Verif.Props.RepairedCurves
import Verif.Props.Invariance
import Verif.Props.FloatSampling

/-!
# C121: symmetries, scale and sampling after the repairs (the statements of C76, C77 and C126)
-/

namespace Stroke

section Shape
variable {P Q : Type} [Point ℝ P] [LawfulPoint P] [Point ℝ Q] [LawfulPoint Q]

theorem nearSegment_comm (a b p : P) (tol : ℝ) : NearSegment b a p tol ↔ NearSegment a b p tol := by
  have key : ∀ a b : P, NearSegment b a p tol → NearSegment a b p tol := by
    rintro a b ⟨d, ⟨s, h0, h1, rfl⟩, hd⟩
    refine ⟨_, ⟨1 - s, by linarith, by linarith, rfl⟩, ?_⟩
    convert hd using 5
    ring
  exact ⟨key a b, key b a⟩

theorem isLinearFixed_false_quadratic (q : QuadraticBezier P) (tol : ℝ)
    (h : pdist q.start q.end_ ^ 2 < eps) : q.isLinearFixed tol = some false := by
  unfold QuadraticBezier.isLinearFixed
  simp only [squaredLength_sub, lt_real, epsilon_real]
  rw [if_pos (by simpa using h)]
  rfl

theorem isLinearFixed_false_cubic (c : CubicBezier P) (tol : ℝ)
    (h : pdist c.start c.end_ ^ 2 < eps) : c.isLinearFixed tol = some false := by
  unfold CubicBezier.isLinearFixed
  simp only [squaredLength_sub, lt_real, epsilon_real]
  rw [if_pos (by simpa using h)]
  rfl

theorem isAPointFixed_iff (q : QuadraticBezier P) (tol : ℝ) :
    q.isAPointFixed tol = true ↔ pdist q.start q.ctrl ≤ |tol| ∧ pdist q.ctrl q.end_ ≤ |tol| ∧
      pdist q.start q.end_ ≤ |tol| := by
  have hsq : ∀ x y : P, pdist x y ^ 2 ≤ tol * tol ↔ pdist x y ≤ |tol| := fun x y => by
    rw [← sq, sq_le_sq, abs_of_nonneg (pdist_nonneg x y)]
  unfold QuadraticBezier.isAPointFixed
  simp only [squaredLength_sub, le_real, Bool.and_eq_true, decide_eq_true_eq, hsq]
  rw [pdist_comm q.end_ q.ctrl]
  tauto

/-- **C121**: with the repaired distance `is_linear` does not depend on the direction of travel, and
neither does `is_a_point` of quadratic curves with the third comparison (the statement of C77). -/
theorem C121_reversal (a b c d : P) (tol : ℝ) :
    (QuadraticBezier.new c b a).isLinearFixed tol = (QuadraticBezier.new a b c).isLinearFixed tol ∧
    (CubicBezier.new d c b a).isLinearFixed tol = (CubicBezier.new a b c d).isLinearFixed tol ∧
    (QuadraticBezier.new c b a).isAPointFixed tol = (QuadraticBezier.new a b c).isAPointFixed tol := by
  refine ⟨?_, ?_, ?_⟩
  · rcases lt_or_ge (pdist a c ^ 2) eps with h | h
    · rw [isLinearFixed_false_quadratic (QuadraticBezier.new a b c) tol h,
        isLinearFixed_false_quadratic (QuadraticBezier.new c b a) tol (by
          show pdist c a ^ 2 < eps; rwa [pdist_comm])]
    · obtain ⟨r, hr, e⟩ := C121_is_linear_quadratic (QuadraticBezier.new a b c) tol h
      obtain ⟨r', hr', e'⟩ := C121_is_linear_quadratic (QuadraticBezier.new c b a) tol (by
        show eps ≤ pdist c a ^ 2; rwa [pdist_comm])
      rw [hr, hr']
      congr 1
      rw [Bool.eq_iff_iff, e, e']
      exact nearSegment_comm a c b tol
  · rcases lt_or_ge (pdist a d ^ 2) eps with h | h
    · rw [isLinearFixed_false_cubic (CubicBezier.new a b c d) tol h,
        isLinearFixed_false_cubic (CubicBezier.new d c b a) tol (by
          show pdist d a ^ 2 < eps; rwa [pdist_comm])]
    · obtain ⟨r, hr, e⟩ := C121_is_linear_cubic (CubicBezier.new a b c d) tol h
      obtain ⟨r', hr', e'⟩ := C121_is_linear_cubic (CubicBezier.new d c b a) tol (by
        show eps ≤ pdist d a ^ 2; rwa [pdist_comm])
      rw [hr, hr']
      congr 1
      rw [Bool.eq_iff_iff, e, e']
      have h1 := nearSegment_comm a d b tol
      have h2 := nearSegment_comm a d c tol
      exact ⟨fun ⟨x, y⟩ => ⟨h1.1 y, h2.1 x⟩, fun ⟨x, y⟩ => ⟨h2.2 y, h1.2 x⟩⟩
  · rw [Bool.eq_iff_iff, isAPointFixed_iff, isAPointFixed_iff]
    simp only [QuadraticBezier.new]
    rw [pdist_comm c a, pdist_comm c b, pdist_comm a b]
    tauto

/-- **C121**: the repaired `is_a_point` of quadratic curves is true exactly when no two control
points are further than `|tol|` apart. -/
theorem C121_is_a_point (q : QuadraticBezier P) (tol : ℝ) :
    q.isAPointFixed tol = true ↔ pdist q.start q.ctrl ≤ |tol| ∧ pdist q.ctrl q.end_ ≤ |tol| ∧
      pdist q.start q.end_ ≤ |tol| :=
  isAPointFixed_iff q tol

/-- **C121**: the repaired distance to a segment scales with every similarity, however small the
segment (the statement of C76). -/
theorem C121_similarity {f : P → Q} {r : ℝ} (hr : 0 < r) (hf : IsSimilarity f r) (a b p : P) :
    (LineSegment.new (f a) (f b)).distanceFixed (f p)
      = ((LineSegment.new a b).distanceFixed p).map (r * ·) := by
  obtain ⟨d, hd, hm⟩ := C121_distance (LineSegment.new a b) p
  obtain ⟨e, he, hn⟩ := C121_distance (LineSegment.new (f a) (f b)) (f p)
  rw [hd, he, Option.map_some]
  congr 1
  have hset : ∀ x : ℝ, x ∈ segmentDistances a b p ↔ r * x ∈ segmentDistances (f a) (f b) (f p) := by
    have form : ∀ {R : Type} [Point ℝ R] [LawfulPoint R] (a b p : R) (x : ℝ),
        x ∈ segmentDistances a b p ↔
          ∃ s : ℝ, 0 ≤ s ∧ s ≤ 1 ∧ x = pdist ((LineSegment.new a b).eval s) p := by
      intro R _ _ a b p x
      have : ∀ s : ℝ, Real.sqrt (∑ i ∈ Finset.range (Point.dim R),
          ((1 - s) * coord a i + s * coord b i - coord p i) ^ 2)
          = pdist ((LineSegment.new a b).eval s) p := by
        intro s
        unfold pdist
        congr 1
        refine Finset.sum_congr rfl fun i _ => ?_
        simp only [LineSegment.eval, LineSegment.new, coord_add, coord_mul, coord_sub]
        ring
      simp only [segmentDistances, Set.mem_ofPred_eq, this]
    intro x
    rw [form, form]
    simp only [(C37_specialised f hf.1 a b a a _).1, hf.2]
    constructor
    · rintro ⟨s, h0, h1, rfl⟩; exact ⟨s, h0, h1, rfl⟩
    · rintro ⟨s, h0, h1, h⟩; exact ⟨s, h0, h1, mul_left_cancel₀ hr.ne' h⟩
  have h1 : e ≤ r * d := hn.2 ((hset d).1 hm.1)
  have h2 : d ≤ e / r := hm.2 ((hset _).2 (by rw [mul_div_cancel₀ _ hr.ne']; exact hn.1))
  rw [le_div_iff₀ hr] at h2
  exact le_antisymm h1 (by linarith)

end Shape

section Samples
open Fl
variable {F : FloatFormat} {n : ℕ}

/-- **C121**: with the repaired sample parameter every sample of every domain is in the domain and
the first one is its start, in floating point (the statement of C126). -/
theorem C121_sampling {lo hi : Fl F} (hu : F.u ≤ 1 / 1024) (he : F.eta ≤ 1 / 1024)
    (hlo : lo.IsFinite) (hhi : hi.IsFinite) (hle : lo.toReal ≤ hi.toReal) {M : ℝ}
    (hM : |lo.toReal| ≤ M) (hM' : |hi.toReal| ≤ M) (hmax : 4 * M ≤ F.max) (hn : 1 ≤ n)
    (hnum : ∀ i : ℕ, i ≤ n → (i : ℝ) ∈ F.grid ∧ |(i : ℝ)| ≤ F.max) (i : ℕ) (hi' : i ≤ n) :
    (BSpline.sampleFixed lo hi i n).IsFinite ∧ lo.toReal ≤ (BSpline.sampleFixed lo hi i n).toReal ∧
      (BSpline.sampleFixed lo hi i n).toReal ≤ hi.toReal := by
  obtain ⟨h, -⟩ := C126_close hu he hlo hhi hle hM hM' hmax hn hnum
  obtain ⟨hf, hl, -⟩ := h i hi'
  have e : BSpline.sampleFixed lo hi i n
      = if Scalar.lt hi (sampleParam lo hi i n) then hi else sampleParam lo hi i n := rfl
  rw [e]
  obtain ⟨x, hx, ex⟩ := isFinite_iff.1 hf
  obtain ⟨y, hy, rfl⟩ := isFinite_iff.1 hhi
  rw [ex] at hl ⊢
  split_ifs with hc
  · exact ⟨trivial, hle, le_rfl⟩
  · exact ⟨trivial, hl, not_lt.1 fun h => hc (lt_fin.2 h)⟩

end Samples

end Stroke
