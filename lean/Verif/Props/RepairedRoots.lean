import Verif.Repaired.Model
import Verif.Props.Roots
import Verif.Props.BoundingBox

/-!
# The repaired root finders (C121)
-/

set_option linter.unusedSectionVars false

namespace Stroke

variable {P : Type} [Point ℝ P] [LawfulPoint P]

/-- The repaired quadratic root finder in closed form. -/
theorem rootsSquareFixed_eq (a b c : ℝ) : rootsSquareFixed a b c = some
    (if a = 0 then (if b = 0 then [] else [-c / b])
     else if 0 < b * b - a * c * 4 then
      [(-b - Real.sqrt (b * b - a * c * 4)) / (a * 2),
       (-b + Real.sqrt (b * b - a * c * 4)) / (a * 2)]
     else if b * b - a * c * 4 = 0 then [-b / (a * 2)] else []) := by
  unfold rootsSquareFixed
  simp only [lt_real, eq_real, lit_real, sqrt_real, decide_eq_true_eq]
  push_cast
  by_cases ha : a = 0
  · rw [if_pos ha, if_pos ha]
    by_cases hb : b = 0
    · rw [if_pos hb, if_pos hb]; rfl
    · rw [if_neg hb, if_neg hb]; rfl
  · rw [if_neg ha, if_neg ha]
    by_cases hd : 0 < b * b - a * c * 4
    · rw [if_pos hd, if_pos hd]; rfl
    · rw [if_neg hd, if_neg hd]
      by_cases hd' : b * b - a * c * 4 = 0
      · rw [if_pos hd', if_pos hd']; rfl
      · rw [if_neg hd', if_neg hd']; rfl

/-- **C121**: the repaired quadratic root finder returns exactly the real roots of the polynomial,
each once, whatever its degree, provided that it is not the zero polynomial (the statement of
C55 without any EPSILON). -/
theorem C121_roots_square (a b c : ℝ) :
    ∃ rs, rootsSquareFixed a b c = some rs ∧ rs.length ≤ 2 ∧ rs.Nodup ∧
      (¬ (a = 0 ∧ b = 0 ∧ c = 0) → ∀ x, x ∈ rs ↔ a * x ^ 2 + b * x + c = 0) := by
  refine ⟨_, rootsSquareFixed_eq a b c, ?_⟩
  by_cases ha : a = 0
  · rw [if_pos ha]
    by_cases hb : b = 0
    · rw [if_pos hb]
      refine ⟨by simp, by simp, fun h x => ?_⟩
      rw [ha, hb]
      constructor
      · intro hx; simp at hx
      · intro hx; exact absurd ⟨ha, hb, by linarith⟩ h
    · rw [if_neg hb]
      refine ⟨by simp, by simp, fun _ x => ?_⟩
      rw [List.mem_singleton, ha, eq_div_iff hb]
      constructor <;> intro h <;> linarith
  · rw [if_neg ha]
    by_cases hd : 0 < b * b - a * c * 4
    · rw [if_pos hd]
      refine ⟨by simp, ?_, fun _ x => ?_⟩
      · have hs := Real.sqrt_pos.2 hd
        simp only [List.nodup_cons, List.mem_singleton, List.not_mem_nil, not_false_eq_true,
          List.nodup_nil, and_true]
        intro h
        have ha2 : a * 2 ≠ 0 := by simpa using ha
        rw [div_left_inj' ha2] at h
        linarith
      · rw [quadratic_roots_iff ha hd]; simp
    · rw [if_neg hd]
      by_cases hd' : b * b - a * c * 4 = 0
      · rw [if_pos hd']
        refine ⟨by simp, by simp, fun _ x => ?_⟩
        have h2 : (2 * a * x + b) ^ 2 = 4 * a * (a * x ^ 2 + b * x + c) := by
          linear_combination hd'
        have ha2 : a * 2 ≠ 0 := by simpa using ha
        rw [List.mem_singleton, eq_div_iff ha2]
        constructor
        · intro h
          have : 2 * a * x + b = 0 := by linarith
          rw [this] at h2
          have h4 : 4 * a ≠ 0 := by simpa using ha
          exact (mul_eq_zero.1 (h2.symm.trans (by norm_num))).resolve_left h4
        · intro h
          rw [h, mul_zero] at h2
          have := pow_eq_zero_iff (two_ne_zero) |>.1 h2
          linarith
      · rw [if_neg hd']
        refine ⟨by simp, by simp, fun _ x => ?_⟩
        have hneg : b * b - a * c * 4 < 0 := lt_of_le_of_ne (not_lt.1 hd) hd'
        constructor
        · intro h; simp at h
        · intro h; exact absurd h (quadratic_no_roots hneg x)

/-- The repaired cubic root finder in closed form. -/
theorem rootsCubicFixed_eq {a : ℝ} (b c d : ℝ) (ha : a ≠ 0) : rootsCubicFixed a b c d = some
    (if 0 ≤ d01 a b c d then
      (if cs a b c d - ct a b c d = 0 ∧ cs a b c d + ct a b c d ≠ 0 then
        [-(b / a) * (1 / 3) + (cs a b c d + ct a b c d),
         -(b / a) * (1 / 3) - (cs a b c d + ct a b c d) / 2]
       else [-(b / a) * (1 / 3) + (cs a b c d + ct a b c d)])
     else [trigRoot a b c d 0, trigRoot a b c d (2 * Real.pi), trigRoot a b c d (4 * Real.pi)]) := by
  unfold rootsCubicFixed
  have hpi : Scalar.acos (lit (-1) : ℝ) = Real.pi := by
    rw [lit_real, acos_real]; push_cast; exact Real.arccos_neg_one
  rw [hpi]
  simp only [eq_real, le_real, abs_real, lit_real, sqrt_real, decide_eq_true_eq,
    signum_real, powf_real, acos_real, cos_real, Bool.and_eq_true]
  push_cast
  rw [if_neg ha]
  change (if 0 ≤ d01 a b c d then _ else _) = _
  by_cases h : 0 ≤ d01 a b c d
  · rw [if_pos h, if_pos h]
    rw [avPush_some _ (by simp)]
    change (if cs a b c d - ct a b c d = 0 ∧ (!decide (cs a b c d + ct a b c d = 0)) = true
      then _ else _) = _
    by_cases h2 : cs a b c d - ct a b c d = 0 ∧ cs a b c d + ct a b c d ≠ 0
    · rw [if_pos h2, if_pos (by simpa using h2)]; rfl
    · rw [if_neg h2, if_neg (by simpa using h2)]; rfl
  · rw [if_neg h, if_neg h]
    rw [avPush_some _ (by simp)]
    simp only [Option.bind_eq_bind, Option.bind_some, List.nil_append]
    rw [avPush_some _ (by simp)]
    simp only [Option.bind_some]
    rw [avPush_some _ (by simp)]
    unfold trigRoot
    rw [add_zero]
    rfl

/-- The real roots of a cubic whose discriminant is at most 0. -/
theorem cardano_roots {a b c d : ℝ} (hne : a ≠ 0) (hd : 0 ≤ d01 a b c d) (z : ℝ) :
    a * z ^ 3 + b * z ^ 2 + c * z + d = 0 ↔
      z = -(b / a) * (1 / 3) + (cs a b c d + ct a b c d) ∨
      (cs a b c d = ct a b c d ∧ z = -(b / a) * (1 / 3) - (cs a b c d + ct a b c d) / 2) := by
  obtain ⟨h3, hst⟩ := cs_ct hd
  have hz : z = -(b / a) * (1 / 3) + (z + b / a * (1 / 3)) := by ring
  have hdep := depressed b c d hne (z + b / a * (1 / 3))
  rw [← hz] at hdep
  rw [hdep, mul_eq_zero, or_iff_right hne]
  have hconv : (z + b / a * (1 / 3)) ^ 3 + 3 * d0 a b c * (z + b / a * (1 / 3))
      - 2 * d1 a b c d = (z + b / a * (1 / 3)) ^ 3
        - 3 * (cs a b c d * ct a b c d) * (z + b / a * (1 / 3))
        - (cs a b c d ^ 3 + ct a b c d ^ 3) := by rw [h3, hst]; ring
  rw [hconv, depressed_roots]
  constructor
  · rintro (h | ⟨h1, h2⟩)
    · left; linarith
    · right; exact ⟨h1, by linarith⟩
  · rintro (h | ⟨h1, h2⟩)
    · left; linarith
    · right; exact ⟨h1, by linarith⟩

/-- **C121**: the repaired cubic root finder returns exactly the real roots of the polynomial, each
once, whatever its degree, provided that it is not the zero polynomial (the statement of C56, with
completeness). -/
theorem C121_roots_cubic (a b c d : ℝ) :
    ∃ rs, rootsCubicFixed a b c d = some rs ∧ rs.length ≤ 3 ∧ rs.Nodup ∧
      (¬ (a = 0 ∧ b = 0 ∧ c = 0 ∧ d = 0) →
        ∀ x, x ∈ rs ↔ a * x ^ 3 + b * x ^ 2 + c * x + d = 0) := by
  by_cases ha : a = 0
  · obtain ⟨rs, h, hl, hn, hx⟩ := C121_roots_square b c d
    refine ⟨rs, ?_, by omega, hn, fun hz x => ?_⟩
    · unfold rootsCubicFixed
      simp only [eq_real, lit_real, decide_eq_true_eq]
      push_cast
      rw [if_pos ha, h]
    · rw [hx (fun h => hz ⟨ha, h⟩), ha]
      constructor <;> intro h <;> linarith
  · refine ⟨_, rootsCubicFixed_eq b c d ha, ?_⟩
    by_cases hd : 0 ≤ d01 a b c d
    · rw [if_pos hd]
      by_cases h2 : cs a b c d - ct a b c d = 0 ∧ cs a b c d + ct a b c d ≠ 0
      · rw [if_pos h2]
        refine ⟨by simp, ?_, fun _ x => ?_⟩
        · simp only [List.nodup_cons, List.mem_singleton, List.not_mem_nil, not_false_eq_true,
            List.nodup_nil, and_true]
          intro h
          exact h2.2 (by linarith)
        · rw [cardano_roots ha hd]
          have := sub_eq_zero.1 h2.1
          simp [this]
      · rw [if_neg h2]
        refine ⟨by simp, by simp, fun _ x => ?_⟩
        rw [cardano_roots ha hd, List.mem_singleton]
        constructor
        · exact Or.inl
        · rintro (h | ⟨h, h'⟩)
          · exact h
          · have h0 : cs a b c d + ct a b c d = 0 := by
              by_contra hc
              exact h2 ⟨by linarith, hc⟩
            rw [h', h0]; ring
    · rw [if_neg hd]
      have hlt := not_le.1 hd
      obtain ⟨l1, l2⟩ := trig_distinct hlt
      have e1 := trig_root ha hlt 0
      have e2 := trig_root ha hlt 1
      have e3 := trig_root ha hlt 2
      have s1 : (2 * ((0 : ℕ) : ℝ) * Real.pi) = 0 := by push_cast; ring
      have s2 : (2 * ((1 : ℕ) : ℝ) * Real.pi) = 2 * Real.pi := by push_cast; ring
      have s3 : (2 * ((2 : ℕ) : ℝ) * Real.pi) = 4 * Real.pi := by push_cast; ring
      rw [s1] at e1
      rw [s2] at e2
      rw [s3] at e3
      have n12 : trigRoot a b c d 0 ≠ trigRoot a b c d (2 * Real.pi) := by
        intro h; linarith
      have n13 : trigRoot a b c d 0 ≠ trigRoot a b c d (4 * Real.pi) := by
        intro h; linarith
      have n23 : trigRoot a b c d (2 * Real.pi) ≠ trigRoot a b c d (4 * Real.pi) := l1.ne
      refine ⟨by simp, ?_, fun _ x => ?_⟩
      · simp [n12, n13, n23]
      · simp only [List.mem_cons, List.not_mem_nil, or_false]
        constructor
        · rintro (h | h | h) <;> rw [h] <;> assumption
        · exact three_roots ha n12 n13 n23 e1 e2 e3

/-- Test: the polynomial `x³ - x`, for which the code returns a wrong value (`C56_false`). -/
example : ∃ rs, rootsCubicFixed (1 : ℝ) 0 (-1) 0 = some rs ∧ rs.Nodup ∧
    ∀ x, x ∈ rs ↔ x = -1 ∨ x = 0 ∨ x = 1 := by
  obtain ⟨rs, h, -, hn, hx⟩ := C121_roots_cubic 1 0 (-1) 0
  refine ⟨rs, h, hn, fun x => ?_⟩
  rw [hx (by norm_num)]
  have e : 1 * x ^ 3 + 0 * x ^ 2 + -1 * x + 0 = (x + 1) * (x * (x - 1)) := by ring
  rw [e, mul_eq_zero, mul_eq_zero, sub_eq_zero, add_eq_zero_iff_eq_neg]

/-! ### `solve_t_for_axis` -/

/-- **C121**: the repaired `QuadraticBezier::solve_t_for_axis` returns exactly the parameters in
(0, 1) at which the curve has the given value on the axis, each once, provided that the curve is not
constantly equal to the value on that axis (the statement of C57, with completeness). -/
theorem C121_solve_quadratic (q : QuadraticBezier P) (v : ℝ) (i : ℕ) (hi : i < Point.dim P)
    (hv : ¬ ∀ t, coord (q.eval t) i = v) :
    ∃ ts, q.solveFixed v i = some ts ∧ ts.Nodup ∧
      ∀ t, t ∈ ts ↔ 0 < t ∧ t < 1 ∧ coord (q.eval t) i = v := by
  have hpoly : ∀ t, coord (q.eval t) i - v =
      (coord q.start i + coord q.ctrl i * (-2) + coord q.end_ i) * t ^ 2
      + (coord q.start i * (-2) + coord q.ctrl i * 2) * t + (coord q.start i - v) := by
    intro t; rw [C10_eval]; ring
  obtain ⟨rs, hrs, hl, hn, hx⟩ := C121_roots_square
    (coord q.start i + coord q.ctrl i * (-2) + coord q.end_ i)
    (coord q.start i * (-2) + coord q.ctrl i * 2) (coord q.start i - v)
  have hx' := hx (fun ⟨h1, h2, h3⟩ => hv fun t => by
    have := hpoly t
    rw [h1, h2, h3] at this
    linarith)
  have hsolve : q.solveFixed v i = keepInside rs := by
    unfold QuadraticBezier.solveFixed keepInside
    rw [axis_eq _ hi, axis_eq _ hi, axis_eq _ hi]
    simp only [Option.bind_eq_bind, Option.bind_some, lit_real]
    push_cast
    rw [hrs]
    simp
  refine ⟨_, hsolve.trans (keepInside_eq rs (by omega)), hn.filter _, fun t => ?_⟩
  rw [List.mem_filter, hx', ← hpoly, sub_eq_zero]
  simp only [Bool.and_eq_true, decide_eq_true_eq]
  tauto

/-- **C121**: the same for `CubicBezier::solve_t_for_axis`. -/
theorem C121_solve_cubic (q : CubicBezier P) (v : ℝ) (i : ℕ) (hi : i < Point.dim P)
    (hv : ¬ ∀ t, coord (q.eval t) i = v) :
    ∃ ts, q.solveFixed v i = some ts ∧ ts.Nodup ∧
      ∀ t, t ∈ ts ↔ 0 < t ∧ t < 1 ∧ coord (q.eval t) i = v := by
  have hpoly : ∀ t, coord (q.eval t) i - v =
      (-coord q.start i + coord q.ctrl1 i * 3 - coord q.ctrl2 i * 3 + coord q.end_ i) * t ^ 3
      + (coord q.start i * 3 - coord q.ctrl1 i * 6 + coord q.ctrl2 i * 3) * t ^ 2
      + (-coord q.start i * 3 + coord q.ctrl1 i * 3) * t + (coord q.start i - v) := by
    intro t; rw [C20_eval]; ring
  obtain ⟨rs, hrs, hl, hn, hx⟩ := C121_roots_cubic
    (-coord q.start i + coord q.ctrl1 i * 3 - coord q.ctrl2 i * 3 + coord q.end_ i)
    (coord q.start i * 3 - coord q.ctrl1 i * 6 + coord q.ctrl2 i * 3)
    (-coord q.start i * 3 + coord q.ctrl1 i * 3) (coord q.start i - v)
  have hx' := hx (fun ⟨h1, h2, h3, h4⟩ => hv fun t => by
    have := hpoly t
    rw [h1, h2, h3, h4] at this
    linarith)
  have hsolve : q.solveFixed v i = keepInside rs := by
    unfold CubicBezier.solveFixed keepInside
    rw [axis_eq _ hi, axis_eq _ hi, axis_eq _ hi, axis_eq _ hi]
    simp only [Option.bind_eq_bind, Option.bind_some, lit_real]
    push_cast
    rw [hrs]
    simp
  refine ⟨_, hsolve.trans (keepInside_eq rs hl), hn.filter _, fun t => ?_⟩
  rw [List.mem_filter, hx', ← hpoly, sub_eq_zero]
  simp only [Bool.and_eq_true, decide_eq_true_eq]
  tauto

/-- Test: a closed straight curve, for which the code returns nothing, and the value it takes at
its middle. -/
example : ∃ ts, (QuadraticBezier.new (pt2 0 0) (pt2 2 0) (pt2 0 0)).solveFixed 1 0 = some ts ∧
    (1 / 2 : ℝ) ∈ ts := by
  obtain ⟨ts, h, -, ht⟩ := C121_solve_quadratic
    (QuadraticBezier.new (pt2 0 0) (pt2 2 0) (pt2 0 0)) 1 0 (by show 0 < 2; norm_num)
    (by
      intro h
      have := h 0
      rw [C10_eval] at this
      simp [QuadraticBezier.new] at this)
  refine ⟨ts, h, (ht _).2 ⟨by norm_num, by norm_num, ?_⟩⟩
  rw [C10_eval]
  simp [QuadraticBezier.new]
  norm_num

/-- Test: the hypothesis for a cubic curve. -/
example : ∃ ts, (CubicBezier.new (pt2 0 0) (pt2 1 0) (pt2 2 0) (pt2 3 0)).solveFixed 1 0 = some ts ∧
    ∀ t, t ∈ ts ↔ t = (1 / 3 : ℝ) := by
  have he : ∀ t : ℝ,
      coord ((CubicBezier.new (pt2 0 0) (pt2 1 0) (pt2 2 0) (pt2 3 0)).eval t) 0 = 3 * t := by
    intro t
    rw [C20_eval]
    simp [CubicBezier.new]
    ring
  obtain ⟨ts, h, -, ht⟩ := C121_solve_cubic
    (CubicBezier.new (pt2 0 0) (pt2 1 0) (pt2 2 0) (pt2 3 0)) 1 0 (by show 0 < 2; norm_num)
    (by
      intro h
      have := h 0
      rw [he] at this
      norm_num at this)
  refine ⟨ts, h, fun t => ?_⟩
  rw [ht, he]
  constructor
  · rintro ⟨-, -, h⟩; linarith
  · rintro rfl; norm_num

/-! ### Bounding boxes -/

/-- **C121**: the repaired box of a quadratic curve contains the curve and both its bounds are
attained, on every axis and without any EPSILON (the statements of C13 and C14). -/
theorem C121_box_quadratic (q : QuadraticBezier P) :
    ∃ box, q.boundingBoxFixed = some box ∧ ∀ i : Fin (Point.dim P),
      ContainsRange (fun t => coord (q.eval t) i) (box i).1 (box i).2 ∧
      AttainsEnds (fun t => coord (q.eval t) i) (box i).1 (box i).2 := by
  have key : ∀ i : Fin (Point.dim P), ∃ v, q.axisBoundsFixed
      (q.derivative.start * (lit (-1) : ℝ) + q.derivative.end_) q.derivative.start i = some v ∧
      ContainsRange (fun t => coord (q.eval t) i) v.1 v.2 ∧
      AttainsEnds (fun t => coord (q.eval t) i) v.1 v.2 := by
    intro i
    obtain ⟨lo, hi, h, h1, h2, h3, h4⟩ := extrema_ends (fun t => coord (q.eval t) i)
      (if qa q i = 0 then [] else [-qb q i / qa q i])
    refine ⟨(lo, hi), ?_, ?_, h1.attainsEnds⟩
    · rw [← h]
      unfold QuadraticBezier.axisBoundsFixed
      have ea : coord (q.derivative.start * (lit (-1) : ℝ) + q.derivative.end_) i = qa q i := by
        simp [QuadraticBezier.derivative, qa]; ring
      have eb : coord q.derivative.start i = qb q i := by
        simp [QuadraticBezier.derivative, qb]; ring
      rw [axis_eq _ i.isLt, axis_eq _ i.isLt, ea, eb]
      have e0 : coord q.start i = coord (q.eval (0 : ℝ)) i := by rw [(C10_endpoints q).1]
      have e1 : coord q.end_ i = coord (q.eval (1 : ℝ)) i := by rw [(C10_endpoints q).2]
      have ec : ∀ (l : List ℝ), l.mapM (fun t => Point.axis (q.evalCasteljau t) i)
          = some (l.map fun t => coord (q.eval t) i) := fun l => mapM_some _ _ l (by
        intro x _; rw [axis_eq _ i.isLt, C10_methods_agree])
      simp only [Option.bind_eq_bind, Option.bind_some, lt_real, eq_real,
        decide_eq_true_eq, lit_real, Rat.cast_zero, Rat.cast_one]
      rw [axis_eq _ i.isLt, axis_eq _ i.isLt, e0, e1]
      have hl : ∀ l : List ℝ, (l.filter fun r => decide (0 < r) && decide (r < 1)).length
          ≤ l.length := fun l => List.length_filter_le _ _
      split
      · simp only [Option.bind_some, ec]
        rw [avExtend_some (by simp)]
        simp only [Option.bind_some]
        rw [avPush_some _ (by simp)]
        simp only [Option.bind_some]
        rw [avPush_some _ (by simp)]
        rfl
      · rw [avPush_some _ (by simp)]
        simp only [Option.bind_some]
        rw [avExtend_some (by simp)]
        simp only [Option.bind_some, List.nil_append]
        rw [ec]
        simp only [Option.bind_some]
        have := hl [-qb q i / qa q i]
        rw [avPush_some _ (by simp at this ⊢; omega)]
        simp only [Option.bind_some]
        rw [avPush_some _ (by simp at this ⊢; omega)]
        rfl
    · refine containsRange_of_critical (quad_hasDerivAt q i.isLt) h2 h3 ?_
      intro t ht0 ht1 hd
      by_cases hz : qa q i = 0
      · have hb' : qb q i = 0 := by rw [hz] at hd; linarith
        have e : coord (q.eval t) i = coord (q.eval (0 : ℝ)) i := by
          have : coord (q.eval t) i
              = coord (q.eval (0 : ℝ)) i + qb q i * t + qa q i / 2 * t ^ 2 := by
            simp only [C10_eval, qa, qb]; ring
          rw [this, hb', hz]; ring
        rw [e]; exact h2
      · have ht : t = -qb q i / qa q i := by field_simp; linarith
        exact h4 t (by rw [if_neg hz, ht]; simp) ht0 ht1
  choose v hv hrest using key
  refine ⟨v, ?_, hrest⟩
  unfold QuadraticBezier.boundingBoxFixed
  simp only []
  rw [iter_length]
  apply forRange_fill
  intro i hi b
  rw [hv ⟨i, hi⟩]
  rfl

/-- **C121**: the same for the repaired box of a cubic curve (the statements of C24 and C25). -/
theorem C121_box_cubic (c : CubicBezier P) :
    ∃ box, c.boundingBoxFixed = some box ∧ ∀ i : Fin (Point.dim P),
      ContainsRange (fun t => coord (c.eval t) i) (box i).1 (box i).2 ∧
      AttainsEnds (fun t => coord (c.eval t) i) (box i).1 (box i).2 := by
  have key : ∀ i : Fin (Point.dim P), ∃ v, c.axisBoundsFixed
      (c.derivative.start + c.derivative.ctrl * (lit (-2) : ℝ) + c.derivative.end_)
      (c.derivative.start * (lit (-2) : ℝ) + c.derivative.ctrl * (lit 2 : ℝ))
      c.derivative.start i = some v ∧
      ContainsRange (fun t => coord (c.eval t) i) v.1 v.2 ∧
      AttainsEnds (fun t => coord (c.eval t) i) v.1 v.2 := by
    intro i
    obtain ⟨l, hroots, hl, -, hx⟩ := C121_roots_square (ca c i) (cb c i) (cc c i)
    obtain ⟨lo, hi, h, h1, h2, h3, h4⟩ := extrema_ends (fun t => coord (c.eval t) i) l
    refine ⟨(lo, hi), ?_, ?_, h1.attainsEnds⟩
    · rw [← h]
      unfold CubicBezier.axisBoundsFixed
      have ea : coord (c.derivative.start + c.derivative.ctrl * (lit (-2) : ℝ)
          + c.derivative.end_) i = ca c i := by
        simp [CubicBezier.derivative, ca]; ring
      have eb : coord (c.derivative.start * (lit (-2) : ℝ) + c.derivative.ctrl * (lit 2 : ℝ)) i
          = cb c i := by
        simp [CubicBezier.derivative, cb]; ring
      have ec : coord c.derivative.start i = cc c i := by
        simp [CubicBezier.derivative, cc]; ring
      rw [axis_eq _ i.isLt, axis_eq _ i.isLt, axis_eq _ i.isLt, ea, eb, ec]
      have e0 : coord c.start i = coord (c.eval (0 : ℝ)) i := by rw [(C20_endpoints c).1]
      have e1 : coord c.end_ i = coord (c.eval (1 : ℝ)) i := by rw [(C20_endpoints c).2]
      have em : ∀ (l : List ℝ), l.mapM (fun t => Point.axis (c.evalCasteljau t) i)
          = some (l.map fun t => coord (c.eval t) i) := fun l => mapM_some _ _ l (by
        intro x _; rw [axis_eq _ i.isLt, C20_methods_agree])
      simp only [Option.bind_eq_bind, Option.bind_some, lt_real, lit_real, Rat.cast_zero,
        Rat.cast_one]
      rw [hroots, axis_eq _ i.isLt, axis_eq _ i.isLt, e0, e1]
      have hl2 : (l.filter fun r => decide (0 < r) && decide (r < 1)).length ≤ l.length :=
        List.length_filter_le _ _
      simp only [Option.bind_some]
      rw [avExtend_some (by simp; omega)]
      simp only [Option.bind_some, List.nil_append]
      rw [em]
      simp only [Option.bind_some]
      rw [avPush_some _ (by simp only [List.length_map]; omega)]
      simp only [Option.bind_some]
      rw [avPush_some _ (by simp; omega)]
      rfl
    · refine containsRange_of_critical (cubic_hasDerivAt c i.isLt) h2 h3 ?_
      intro t ht0 ht1 hd
      by_cases hz : ca c i = 0 ∧ cb c i = 0 ∧ cc c i = 0
      · have e : coord (c.eval t) i = coord (c.eval (0 : ℝ)) i := by
          rw [cubic_poly, cubic_poly, hz.1, hz.2.1, hz.2.2]; ring
        rw [e]; exact h2
      · exact h4 t ((hx hz t).2 hd) ht0 ht1
  choose v hv hrest using key
  refine ⟨v, ?_, hrest⟩
  unfold CubicBezier.boundingBoxFixed
  simp only []
  rw [iter_length]
  apply forRange_fill
  intro i hi b
  rw [hv ⟨i, hi⟩]
  rfl

end Stroke
