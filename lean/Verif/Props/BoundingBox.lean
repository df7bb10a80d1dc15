import Verif.Props.Cubic
import Verif.Lemmas.Roots
import Verif.Lemmas.Extrema
import Mathlib.Analysis.Calculus.Deriv.Pow

/-!
# Bounding boxes of quadratic and cubic curves (C13, C14, C24, C25)
-/

namespace Stroke

variable {P : Type} [Point ℝ P] [LawfulPoint P]

/-! ### What the loop body computes -/

/-- Both ends of `(lo, hi)` are values of `f` at 0, at 1 or at one of the parameters `l` that lie in
[0, 1]. -/
def AttainsAmong (f : ℝ → ℝ) (l : List ℝ) (lo hi : ℝ) : Prop :=
  (∃ t ∈ 0 :: 1 :: l, 0 ≤ t ∧ t ≤ 1 ∧ f t = lo) ∧ (∃ t ∈ 0 :: 1 :: l, 0 ≤ t ∧ t ≤ 1 ∧ f t = hi)

theorem AttainsAmong.attainsEnds {f : ℝ → ℝ} {l : List ℝ} {lo hi : ℝ}
    (h : AttainsAmong f l lo hi) : AttainsEnds f lo hi :=
  ⟨h.1.imp fun _ h => h.2, h.2.imp fun _ h => h.2⟩

/-- The common tail of both loops: given the candidate parameters `roots`, the
returned pair is the minimum and maximum of the values at the candidates inside
(0, 1) and at both ends. -/
theorem extrema_ends (f : ℝ → ℝ) (roots : List ℝ) :
    ∃ lo hi, (sortUnwrap ((((roots.filter fun r => decide (0 < r) && decide (r < 1)).map f)
          ++ [f 0]) ++ [f 1]) >>= fun s => s.head? >>= fun a => s.getLast? >>= fun b => pure (a, b))
        = some (lo, hi) ∧
      AttainsAmong f roots lo hi ∧ (lo ≤ f 0 ∧ f 0 ≤ hi) ∧ (lo ≤ f 1 ∧ f 1 ≤ hi) ∧
      ∀ r ∈ roots, 0 < r → r < 1 → lo ≤ f r ∧ f r ≤ hi := by
  obtain ⟨lo, hi, h, hlo, hhi, hall⟩ := sort_ends ((((roots.filter fun r =>
    decide (0 < r) && decide (r < 1)).map f) ++ [f 0]) ++ [f 1]) (by simp)
  have hmem : ∀ x ∈ (((roots.filter fun r => decide (0 < r) && decide (r < 1)).map f)
      ++ [f 0]) ++ [f 1], ∃ t ∈ 0 :: 1 :: roots, 0 ≤ t ∧ t ≤ 1 ∧ f t = x := by
    intro x hx
    simp only [List.append_assoc, List.mem_append, List.mem_map, List.mem_filter, Bool.and_eq_true,
      decide_eq_true_eq, List.mem_cons, List.not_mem_nil, or_false] at hx
    rcases hx with ⟨r, ⟨hm, hr⟩, rfl⟩ | rfl | rfl
    · exact ⟨r, by simp [hm], hr.1.le, hr.2.le, rfl⟩
    · exact ⟨0, by simp, le_rfl, zero_le_one, rfl⟩
    · exact ⟨1, by simp, zero_le_one, le_rfl, rfl⟩
  refine ⟨lo, hi, h, ⟨hmem lo hlo, hmem hi hhi⟩, hall _ (by simp), hall _ (by simp), ?_⟩
  intro r hr h0 h1
  apply hall
  simp only [List.append_assoc, List.mem_append, List.mem_map, List.mem_filter, Bool.and_eq_true,
    decide_eq_true_eq]
  exact Or.inl ⟨r, ⟨hr, h0, h1⟩, rfl⟩

/-- Coefficients of the derivative of a quadratic on axis `i`: `qa t + qb`. -/
noncomputable def qa (q : QuadraticBezier P) (i : ℕ) : ℝ :=
  2 * (coord q.start i - 2 * coord q.ctrl i + coord q.end_ i)
noncomputable def qb (q : QuadraticBezier P) (i : ℕ) : ℝ := 2 * (coord q.ctrl i - coord q.start i)

theorem quad_hasDerivAt (q : QuadraticBezier P) {i : ℕ} (hi : i < Point.dim P) (t : ℝ) :
    HasDerivAt (fun u : ℝ => coord (q.eval u) i) (qa q i * t + qb q i) t := by
  refine (C12_derivative q t i hi).congr_deriv ?_
  rw [C05_eval]; simp [QuadraticBezier.derivative, qa, qb]; ring

theorem quad_boundingBox (q : QuadraticBezier P) :
    ∃ box, q.boundingBox = some box ∧ ∀ i : Fin (Point.dim P),
      AttainsAmong (fun t => coord (q.eval t) i)
        (if |qa q i| < eps then [] else [-qb q i / qa q i]) (box i).1 (box i).2 ∧
      ((box i).1 ≤ coord (q.eval (0 : ℝ)) i ∧ coord (q.eval (0 : ℝ)) i ≤ (box i).2) ∧
      ((box i).1 ≤ coord (q.eval (1 : ℝ)) i ∧ coord (q.eval (1 : ℝ)) i ≤ (box i).2) ∧
      ∀ r ∈ (if |qa q i| < eps then [] else [-qb q i / qa q i]), 0 < r → r < 1 →
        (box i).1 ≤ coord (q.eval r) i ∧ coord (q.eval r) i ≤ (box i).2 := by
  have key : ∀ i : Fin (Point.dim P), ∃ v, q.axisBounds q.derivative
      (q.derivative.start * (lit (-1) : ℝ) + q.derivative.end_) q.derivative.start i = some v ∧
      AttainsAmong (fun t => coord (q.eval t) i)
        (if |qa q i| < eps then [] else [-qb q i / qa q i]) v.1 v.2 ∧
      (v.1 ≤ coord (q.eval (0 : ℝ)) i ∧ coord (q.eval (0 : ℝ)) i ≤ v.2) ∧
      (v.1 ≤ coord (q.eval (1 : ℝ)) i ∧ coord (q.eval (1 : ℝ)) i ≤ v.2) ∧
      ∀ r ∈ (if |qa q i| < eps then [] else [-qb q i / qa q i]), 0 < r → r < 1 →
        v.1 ≤ coord (q.eval r) i ∧ coord (q.eval r) i ≤ v.2 := by
    intro i
    obtain ⟨lo, hi, h, h1, h2, h3, h4⟩ := extrema_ends (fun t => coord (q.eval t) i)
      (if |qa q i| < eps then [] else [-qb q i / qa q i])
    refine ⟨(lo, hi), ?_, h1, h2, h3, h4⟩
    rw [← h]
    unfold QuadraticBezier.axisBounds LineSegment.root
    have ea : coord (q.derivative.start * (lit (-1) : ℝ) + q.derivative.end_) i = qa q i := by
      simp [QuadraticBezier.derivative, qa]; ring
    have eb : coord q.derivative.start i = qb q i := by
      simp [QuadraticBezier.derivative, qb]; ring
    rw [axis_eq _ i.isLt, axis_eq _ i.isLt, ea, eb]
    have e0 : coord q.start i = coord (q.eval (0 : ℝ)) i := by rw [(C10_endpoints q).1]
    have e1 : coord q.end_ i = coord (q.eval (1 : ℝ)) i := by rw [(C10_endpoints q).2]
    have ec : ∀ (l : List ℝ), l.mapM (fun t => Point.axis (q.evalCasteljau t) i)
        = some (l.map fun t => coord (q.eval t) i) := fun l => mapM_some _ _ l (by
      intro x _; rw [axis_eq _ i.isLt, C10_methods_agree])
    simp only [Option.bind_eq_bind, Option.bind_some, lt_real, abs_real, epsilon_real,
      decide_eq_true_eq, lit_real, Rat.cast_zero, Rat.cast_one]
    rw [axis_eq _ i.isLt, axis_eq _ i.isLt, e0, e1]
    have hl : ∀ l : List ℝ, (l.filter fun r => decide (0 < r) && decide (r < 1)).length
        ≤ l.length := fun l => List.length_filter_le _ _
    split
    · simp only [Option.bind_some, ec]
      rw [avExtend_some (by simp)]
      simp only [Option.bind_some]
      rw [avPush_some _ (by simp)]
      simp only [Option.bind_some]
      rw [avPush_some _ (by simp)]
      rfl
    · rw [avPush_some _ (by simp)]
      simp only [Option.bind_some]
      rw [avExtend_some (by simp)]
      simp only [Option.bind_some, List.nil_append]
      rw [ec]
      simp only [Option.bind_some]
      have := hl [-qb q i / qa q i]
      rw [avPush_some _ (by simp at this ⊢; omega)]
      simp only [Option.bind_some]
      rw [avPush_some _ (by simp at this ⊢; omega)]
      rfl
  choose v hv hrest using key
  refine ⟨v, ?_, hrest⟩
  unfold QuadraticBezier.boundingBox
  simp only []
  rw [iter_length]
  apply forRange_fill
  intro i hi b
  rw [hv ⟨i, hi⟩]
  rfl

/-- **C13**: the box contains the whole curve, up to an eighth of EPSILON on each
side. -/
theorem C13_contains (q : QuadraticBezier P) :
    ∃ box, q.boundingBox = some box ∧ ∀ i : Fin (Point.dim P),
      ContainsRange (fun t => coord (q.eval t) i) ((box i).1 - eps / 8) ((box i).2 + eps / 8) := by
  obtain ⟨box, hbox, h⟩ := quad_boundingBox q
  refine ⟨box, hbox, fun i => ?_⟩
  obtain ⟨-, h0, h1, hr⟩ := h i
  by_cases ha : |qa q i| < eps
  · intro t ht0 ht1
    have e : coord (q.eval t) i = (1 - t) * coord (q.eval (0 : ℝ)) i + t * coord (q.eval (1 : ℝ)) i
        - qa q i / 2 * (t * (1 - t)) := by
      simp only [C10_eval, qa]; ring
    have ht : 0 ≤ t * (1 - t) := mul_nonneg ht0 (by linarith)
    have ht' : t * (1 - t) ≤ 1 / 4 := by nlinarith [sq_nonneg (2 * t - 1)]
    have hA : |qa q i / 2 * (t * (1 - t))| ≤ eps / 8 := by
      rw [abs_mul, abs_of_nonneg ht, abs_div, abs_of_pos (show (0 : ℝ) < 2 by norm_num)]
      have := eps_pos
      nlinarith [abs_nonneg (qa q i)]
    have hA' := abs_le.1 hA
    have hw : 0 ≤ 1 - t := by linarith
    have a1 := mul_le_mul_of_nonneg_left h0.1 hw
    have a2 := mul_le_mul_of_nonneg_left h0.2 hw
    have b1 := mul_le_mul_of_nonneg_left h1.1 ht0
    have b2 := mul_le_mul_of_nonneg_left h1.2 ht0
    show _ ≤ coord (q.eval t) i ∧ coord (q.eval t) i ≤ _
    rw [e]
    constructor <;> linarith
  · have : ContainsRange (fun t => coord (q.eval t) i) (box i).1 (box i).2 := by
      refine containsRange_of_critical (quad_hasDerivAt q i.isLt) h0 h1 ?_
      intro t ht0 ht1 hd
      have hne := ne_zero_of_eps_le (not_lt.1 ha)
      have ht : t = -qb q i / qa q i := by field_simp; linarith
      exact hr t (by rw [if_neg ha, ht]; simp) ht0 ht1
    have he := eps_pos
    exact this.mono (by linarith) (by linarith)

/-- **C13** (exact case): on every axis where the second difference
`start - 2 ctrl + end` is 0 or at least EPSILON / 2 in absolute value, the box
contains the curve exactly. -/
theorem C13_contains_exact (q : QuadraticBezier P) :
    ∃ box, q.boundingBox = some box ∧ ∀ i : Fin (Point.dim P),
      (coord q.start i - 2 * coord q.ctrl i + coord q.end_ i = 0 ∨
        eps / 2 ≤ |coord q.start i - 2 * coord q.ctrl i + coord q.end_ i|) →
      ContainsRange (fun t => coord (q.eval t) i) (box i).1 (box i).2 := by
  obtain ⟨box, hbox, h⟩ := quad_boundingBox q
  refine ⟨box, hbox, fun i hi => ?_⟩
  obtain ⟨-, h0, h1, hr⟩ := h i
  refine containsRange_of_critical (quad_hasDerivAt q i.isLt) h0 h1 ?_
  intro t ht0 ht1 hd
  rcases hi with hz | hb
  · have hz' : qa q i = 0 := by unfold qa; rw [hz]; ring
    have hb' : qb q i = 0 := by rw [hz'] at hd; linarith
    have e : coord (q.eval t) i = coord (q.eval (0 : ℝ)) i := by
      have : coord (q.eval t) i = coord (q.eval (0 : ℝ)) i + qb q i * t + qa q i / 2 * t ^ 2 := by
        simp only [C10_eval, qa, qb]; ring
      rw [this, hb', hz']; ring
    rw [e]; exact h0
  · have ha : ¬ |qa q i| < eps := by
      unfold qa
      rw [abs_mul, abs_of_pos (show (0 : ℝ) < 2 by norm_num)]
      linarith
    have hne := ne_zero_of_eps_le (not_lt.1 ha)
    have ht : t = -qb q i / qa q i := by field_simp; linarith
    exact hr t (by rw [if_neg ha, ht]; simp) ht0 ht1

/-- **C14**: both bounds are attained on [0, 1], and lower ≤ upper. -/
theorem C14_tight (q : QuadraticBezier P) :
    ∃ box, q.boundingBox = some box ∧ ∀ i : Fin (Point.dim P),
      (box i).1 ≤ (box i).2 ∧ AttainsEnds (fun t => coord (q.eval t) i) (box i).1 (box i).2 := by
  obtain ⟨box, hbox, h⟩ := quad_boundingBox q
  exact ⟨box, hbox, fun i => ⟨(h i).2.1.1.trans (h i).2.1.2, (h i).1.attainsEnds⟩⟩

/-- Test: both cases of the exact containment are met by a concrete curve. -/
example : let q := QuadraticBezier.new (pt2 0 0) (pt2 1 1) (pt2 2 0)
    coord q.start 0 - 2 * coord q.ctrl 0 + coord q.end_ 0 = 0 ∧
    eps / 2 ≤ |coord q.start 1 - 2 * coord q.ctrl 1 + coord q.end_ 1| := by
  have := eps_lt_one
  simp [QuadraticBezier.new]; linarith

/-! ### Cubic curves -/

/-- Coefficients of the derivative of a cubic on axis `i`: `ca t² + cb t + cc`. -/
noncomputable def ca (c : CubicBezier P) (i : ℕ) : ℝ :=
  3 * (-coord c.start i + 3 * coord c.ctrl1 i - 3 * coord c.ctrl2 i + coord c.end_ i)
noncomputable def cb (c : CubicBezier P) (i : ℕ) : ℝ :=
  6 * (coord c.start i - 2 * coord c.ctrl1 i + coord c.ctrl2 i)
noncomputable def cc (c : CubicBezier P) (i : ℕ) : ℝ := 3 * (coord c.ctrl1 i - coord c.start i)

theorem cubic_poly (c : CubicBezier P) (t : ℝ) (i : ℕ) : coord (c.eval t) i
    = coord c.start i + cc c i * t + cb c i / 2 * t ^ 2 + ca c i / 3 * t ^ 3 := by
  rw [C20_eval]; unfold ca cb cc; ring

theorem cubic_hasDerivAt (c : CubicBezier P) {i : ℕ} (hi : i < Point.dim P) (t : ℝ) :
    HasDerivAt (fun u : ℝ => coord (c.eval u) i) (ca c i * t ^ 2 + cb c i * t + cc c i) t := by
  refine (C22_derivative c t i hi).congr_deriv ?_
  rw [C10_eval]; simp [CubicBezier.derivative, ca, cb, cc]; ring

/-- The list of candidate parameters computed for an axis. -/
noncomputable def cubicCandidates (a b c : ℝ) : List ℝ :=
  if |a| < eps then (if |b| < eps then [] else [-c / b])
  else if 0 < b * b - a * c * 4 then
    [(-b - Real.sqrt (b * b - a * c * 4)) / (a * 2), (-b + Real.sqrt (b * b - a * c * 4)) / (a * 2)]
  else if |b * b - a * c * 4| < eps then [-b / (a * 2)] else []

theorem cubicCandidates_length (a b c : ℝ) : (cubicCandidates a b c).length ≤ 2 := by
  unfold cubicCandidates
  split_ifs <;> simp

theorem cubic_boundingBox (c : CubicBezier P) :
    ∃ box, c.boundingBox = some box ∧ ∀ i : Fin (Point.dim P),
      AttainsAmong (fun t => coord (c.eval t) i)
        (cubicCandidates (ca c i) (cb c i) (cc c i)) (box i).1 (box i).2 ∧
      ((box i).1 ≤ coord (c.eval (0 : ℝ)) i ∧ coord (c.eval (0 : ℝ)) i ≤ (box i).2) ∧
      ((box i).1 ≤ coord (c.eval (1 : ℝ)) i ∧ coord (c.eval (1 : ℝ)) i ≤ (box i).2) ∧
      ∀ r ∈ cubicCandidates (ca c i) (cb c i) (cc c i), 0 < r → r < 1 →
        (box i).1 ≤ coord (c.eval r) i ∧ coord (c.eval r) i ≤ (box i).2 := by
  have key : ∀ i : Fin (Point.dim P), ∃ v, c.axisBounds c.derivative
      (c.derivative.start + c.derivative.ctrl * (lit (-2) : ℝ) + c.derivative.end_)
      (c.derivative.start * (lit (-2) : ℝ) + c.derivative.ctrl * (lit 2 : ℝ))
      c.derivative.start i = some v ∧
      AttainsAmong (fun t => coord (c.eval t) i)
        (cubicCandidates (ca c i) (cb c i) (cc c i)) v.1 v.2 ∧
      (v.1 ≤ coord (c.eval (0 : ℝ)) i ∧ coord (c.eval (0 : ℝ)) i ≤ v.2) ∧
      (v.1 ≤ coord (c.eval (1 : ℝ)) i ∧ coord (c.eval (1 : ℝ)) i ≤ v.2) ∧
      ∀ r ∈ cubicCandidates (ca c i) (cb c i) (cc c i), 0 < r → r < 1 →
        v.1 ≤ coord (c.eval r) i ∧ coord (c.eval r) i ≤ v.2 := by
    intro i
    obtain ⟨lo, hi, h, h1, h2, h3, h4⟩ := extrema_ends (fun t => coord (c.eval t) i)
      (cubicCandidates (ca c i) (cb c i) (cc c i))
    refine ⟨(lo, hi), ?_, h1, h2, h3, h4⟩
    rw [← h]
    unfold CubicBezier.axisBounds
    have ea : coord (c.derivative.start + c.derivative.ctrl * (lit (-2) : ℝ) + c.derivative.end_) i
        = ca c i := by
      simp [CubicBezier.derivative, ca]; ring
    have eb : coord (c.derivative.start * (lit (-2) : ℝ) + c.derivative.ctrl * (lit 2 : ℝ)) i
        = cb c i := by
      simp [CubicBezier.derivative, cb]; ring
    have ec : coord c.derivative.start i = cc c i := by
      simp [CubicBezier.derivative, cc]; ring
    rw [axis_eq _ i.isLt, axis_eq _ i.isLt, axis_eq _ i.isLt, ea, eb, ec]
    have e0 : coord c.start i = coord (c.eval (0 : ℝ)) i := by rw [(C20_endpoints c).1]
    have e1 : coord c.end_ i = coord (c.eval (1 : ℝ)) i := by rw [(C20_endpoints c).2]
    have em : ∀ (l : List ℝ), l.mapM (fun t => Point.axis (c.evalCasteljau t) i)
        = some (l.map fun t => coord (c.eval t) i) := fun l => mapM_some _ _ l (by
      intro x _; rw [axis_eq _ i.isLt, C20_methods_agree])
    simp only [Option.bind_eq_bind, Option.bind_some, lt_real, lit_real, Rat.cast_zero,
      Rat.cast_one]
    rw [realRoots_eq, rootsSquare_eq]
    rw [axis_eq _ i.isLt, axis_eq _ i.isLt, e0, e1]
    change ((some (cubicCandidates (ca c i) (cb c i) (cc c i))).bind _).bind _ = _
    have hl := cubicCandidates_length (ca c i) (cb c i) (cc c i)
    generalize cubicCandidates (ca c i) (cb c i) (cc c i) = l at hl
    have hl2 : (l.filter fun r => decide (0 < r) && decide (r < 1)).length ≤ l.length :=
      List.length_filter_le _ _
    simp only [Option.bind_some]
    rw [avExtend_some (by simp; omega)]
    simp only [Option.bind_some, List.nil_append]
    rw [em]
    simp only [Option.bind_some]
    rw [avPush_some _ (by simp only [List.length_map]; omega)]
    simp only [Option.bind_some]
    rw [avPush_some _ (by simp; omega)]
    rfl
  choose v hv hrest using key
  refine ⟨v, ?_, hrest⟩
  unfold CubicBezier.boundingBox
  simp only []
  rw [iter_length]
  apply forRange_fill
  intro i hi b
  rw [hv ⟨i, hi⟩]
  rfl

/-- Every critical point is a candidate when the leading coefficient is not tiny. -/
theorem mem_candidates {a b c t : ℝ} (ha : eps ≤ |a|) (h : a * t ^ 2 + b * t + c = 0) :
    t ∈ cubicCandidates a b c := by
  have hne := ne_zero_of_eps_le ha
  unfold cubicCandidates
  rw [if_neg (not_lt.2 ha)]
  by_cases hd : 0 < b * b - a * c * 4
  · rw [if_pos hd]
    rcases (quadratic_roots_iff hne hd t).1 h with e | e <;> simp [e]
  · rw [if_neg hd]
    have h2 : (2 * a * t + b) ^ 2 = b * b - a * c * 4 := by linear_combination (4 * a) * h
    have hz : b * b - a * c * 4 = 0 := le_antisymm (not_lt.1 hd) (h2 ▸ sq_nonneg _)
    rw [if_pos (by rw [hz, abs_zero]; exact eps_pos)]
    rw [hz] at h2
    have h3 : 2 * a * t + b = 0 := by simpa using h2
    rw [List.mem_singleton]
    field_simp; linarith

/-- **C24** (exact case): on every axis where the leading coefficient of the
derivative is at least EPSILON in absolute value, or is 0 with the next one 0 or at
least EPSILON, the box contains the curve exactly.  The two coefficients are the
third difference times 3 and the second difference times 6. -/
theorem C24_contains_exact (c : CubicBezier P) :
    ∃ box, c.boundingBox = some box ∧ ∀ i : Fin (Point.dim P),
      (let third := 3 * (-coord c.start i + 3 * coord c.ctrl1 i - 3 * coord c.ctrl2 i
          + coord c.end_ i)
       let second := 6 * (coord c.start i - 2 * coord c.ctrl1 i + coord c.ctrl2 i)
       eps ≤ |third| ∨ (third = 0 ∧ (second = 0 ∨ eps ≤ |second|))) →
      ContainsRange (fun t => coord (c.eval t) i) (box i).1 (box i).2 := by
  obtain ⟨box, hbox, h⟩ := cubic_boundingBox c
  refine ⟨box, hbox, fun i hi => ?_⟩
  obtain ⟨-, h0, h1, hr⟩ := h i
  change eps ≤ |ca c i| ∨ (ca c i = 0 ∧ (cb c i = 0 ∨ eps ≤ |cb c i|)) at hi
  refine containsRange_of_critical (cubic_hasDerivAt c i.isLt) h0 h1 ?_
  intro t ht0 ht1 hd
  rcases hi with ha | ⟨ha, hb | hb⟩
  · exact hr t (mem_candidates ha hd) ht0 ht1
  · have hc : cc c i = 0 := by rw [ha, hb] at hd; linarith
    have e : coord (c.eval t) i = coord (c.eval (0 : ℝ)) i := by
      rw [cubic_poly, cubic_poly, ha, hb, hc]; ring
    rw [e]; exact h0
  · have hne := ne_zero_of_eps_le hb
    refine hr t ?_ ht0 ht1
    have he := eps_pos
    unfold cubicCandidates
    rw [if_pos (by rw [ha, abs_zero]; exact he), if_neg (not_lt.2 hb), List.mem_singleton]
    rw [ha] at hd
    field_simp; linarith

/-- **C24**: the box contains the whole curve, up to a third of EPSILON on each side. -/
theorem C24_contains (c : CubicBezier P) :
    ∃ box, c.boundingBox = some box ∧ ∀ i : Fin (Point.dim P),
      ContainsRange (fun t => coord (c.eval t) i) ((box i).1 - eps / 3) ((box i).2 + eps / 3) := by
  obtain ⟨box, hbox, h⟩ := cubic_boundingBox c
  refine ⟨box, hbox, fun i => ?_⟩
  obtain ⟨-, h0, h1, hr⟩ := h i
  have he := eps_pos
  by_cases ha : |ca c i| < eps
  · have hA := abs_lt.1 ha
    by_cases hb : |cb c i| < eps
    · intro t ht0 ht1
      have e : coord (c.eval t) i = (1 - t) * coord (c.eval (0 : ℝ)) i
          + t * coord (c.eval (1 : ℝ)) i - cb c i / 2 * (t * (1 - t))
          - ca c i / 3 * (t * (1 - t) * (1 + t)) := by
        simp only [cubic_poly]; ring
      have hw : 0 ≤ 1 - t := by linarith
      have ht : 0 ≤ t * (1 - t) := mul_nonneg ht0 hw
      have ht' : t * (1 - t) ≤ 1 / 4 := by nlinarith [sq_nonneg (2 * t - 1)]
      have hB := abs_lt.1 hb
      have k : 0 ≤ t * (1 - t) * (1 + t) := mul_nonneg ht (by linarith)
      have k' : t * (1 - t) * (1 + t) ≤ 1 / 2 := by nlinarith
      have b1 : |cb c i / 2 * (t * (1 - t))| ≤ eps / 8 := by
        rw [abs_mul, abs_of_nonneg ht, abs_div, abs_of_pos (show (0 : ℝ) < 2 by norm_num)]
        nlinarith [abs_nonneg (cb c i)]
      have b2 : |ca c i / 3 * (t * (1 - t) * (1 + t))| ≤ eps / 6 := by
        rw [abs_mul, abs_of_nonneg k, abs_div, abs_of_pos (show (0 : ℝ) < 3 by norm_num)]
        nlinarith [abs_nonneg (ca c i)]
      have b1' := abs_le.1 b1
      have b2' := abs_le.1 b2
      have a1 := mul_le_mul_of_nonneg_left h0.1 hw
      have a2 := mul_le_mul_of_nonneg_left h0.2 hw
      have c1 := mul_le_mul_of_nonneg_left h1.1 ht0
      have c2 := mul_le_mul_of_nonneg_left h1.2 ht0
      show _ ≤ coord (c.eval t) i ∧ coord (c.eval t) i ≤ _
      rw [e]
      constructor <;> linarith
    · -- compare with the quadratic part
      have hB := not_lt.1 hb
      have hne := ne_zero_of_eps_le hB
      have hcand : ∀ r, 0 ≤ r → r ≤ 1 →
          (box i).1 ≤ coord (c.eval r) i ∧ coord (c.eval r) i ≤ (box i).2 →
          (box i).1 - (eps + ca c i) / 6 ≤ coord (c.eval r) i - ca c i / 3 * r ^ 3 ∧
          coord (c.eval r) i - ca c i / 3 * r ^ 3 ≤ (box i).2 + (eps - ca c i) / 6 := by
        intro r hr0 hr1 hbox
        have h30 : 0 ≤ r ^ 3 := pow_nonneg hr0 3
        have h31 : r ^ 3 ≤ 1 := pow_le_one₀ hr0 hr1
        constructor <;> nlinarith
      have hg : ContainsRange (fun t => coord (c.eval t) i - ca c i / 3 * t ^ 3)
          ((box i).1 - (eps + ca c i) / 6) ((box i).2 + (eps - ca c i) / 6) := by
        refine containsRange_of_critical (f' := fun t => cb c i * t + cc c i) ?_
          (hcand 0 le_rfl zero_le_one h0) (hcand 1 zero_le_one le_rfl h1) ?_
        · intro t
          have := (cubic_hasDerivAt c i.isLt t).sub
            ((hasDerivAt_pow 3 t).const_mul (ca c i / 3))
          refine this.congr_deriv ?_
          push_cast; ring
        · intro t ht0 ht1 hd
          refine hcand t ht0.le ht1.le (hr t ?_ ht0 ht1)
          unfold cubicCandidates
          rw [if_pos ha, if_neg hb, List.mem_singleton]
          field_simp; linarith
      intro t ht0 ht1
      have := hg t ht0 ht1
      have h30 : 0 ≤ t ^ 3 := pow_nonneg ht0 3
      have h31 : t ^ 3 ≤ 1 := pow_le_one₀ ht0 ht1
      simp only at this ⊢
      constructor <;> nlinarith
  · have : ContainsRange (fun t => coord (c.eval t) i) (box i).1 (box i).2 :=
      containsRange_of_critical (cubic_hasDerivAt c i.isLt) h0 h1
        fun t ht0 ht1 hd => hr t (mem_candidates (not_lt.1 ha) hd) ht0 ht1
    exact this.mono (by linarith) (by linarith)

/-- **C25**: both bounds are attained on [0, 1], and lower ≤ upper. -/
theorem C25_tight (c : CubicBezier P) :
    ∃ box, c.boundingBox = some box ∧ ∀ i : Fin (Point.dim P),
      (box i).1 ≤ (box i).2 ∧ AttainsEnds (fun t => coord (c.eval t) i) (box i).1 (box i).2 := by
  obtain ⟨box, hbox, h⟩ := cubic_boundingBox c
  exact ⟨box, hbox, fun i => ⟨(h i).2.1.1.trans (h i).2.1.2, (h i).1.attainsEnds⟩⟩

/-- Test: both cases of the exact containment are met by a concrete curve (an x axis
that is linear in t, a y axis with a genuine cubic term). -/
example : let c := CubicBezier.new (pt2 0 0) (pt2 1 2) (pt2 2 (-2)) (pt2 3 0)
    3 * (-coord c.start 0 + 3 * coord c.ctrl1 0 - 3 * coord c.ctrl2 0 + coord c.end_ 0) = 0 ∧
    6 * (coord c.start 0 - 2 * coord c.ctrl1 0 + coord c.ctrl2 0) = 0 ∧
    eps ≤ |3 * (-coord c.start 1 + 3 * coord c.ctrl1 1 - 3 * coord c.ctrl2 1
      + coord c.end_ 1)| := by
  have := eps_lt_one
  simp [CubicBezier.new]
  norm_num
  linarith

/-- **C58**: with a valid axis, `axis`, `dd` and `bounding_box` of the fixed-degree
curves return a value (no panic from a failed `unwrap`, an index or a full
fixed-capacity vector). -/
theorem C58_no_panic (l : LineSegment P) (q : QuadraticBezier P) (c : CubicBezier P) (t : ℝ)
    (i : ℕ) (hi : i < Point.dim P) :
    (l.axis t i).isSome ∧ (q.axis t i).isSome ∧ (c.axis t i).isSome ∧
    (q.dd t i).isSome ∧ (c.dd t i).isSome ∧
    l.boundingBox.isSome ∧ q.boundingBox.isSome ∧ c.boundingBox.isSome := by
  refine ⟨?_, ?_, ?_, ?_, ?_, ?_, ?_, ?_⟩
  · rw [C05_axis, axis_eq _ hi]; rfl
  · rw [C10_axis, if_pos hi]; rfl
  · rw [C20_axis, if_pos hi]; rfl
  · rw [C12_dd, axis_eq _ hi]; rfl
  · unfold CubicBezier.dd
    simp only [axis_eq _ hi]; rfl
  · obtain ⟨b, hb, -⟩ := C09_bounding_box l; rw [hb]; rfl
  · obtain ⟨b, hb, -⟩ := quad_boundingBox q; rw [hb]; rfl
  · obtain ⟨b, hb, -⟩ := cubic_boundingBox c; rw [hb]; rfl

end Stroke
