import Verif.Props.Witnesses
import Verif.Props.Culling
import Verif.Props.FloatBoxPanics
import Verif.Props.FloatMonotone
import Verif.Props.FloatBSpline
import Verif.Props.Intersect

/-!
More concrete cases: each `example` applies theorems of the other files to one particular curve.
-/
namespace Stroke
open Scalar Fl

section Binary64
variable (cosI acosI : ℝ → ℝ) (powI : ℝ → ℝ → ℝ)

local notation "F" => binary64 cosI acosI powI
local notation "pt" => smallPoint cosI acosI powI

theorem b64_eta_epsilon : 1024 * (F).eta ≤ (F).epsilon * (F).u ∧ (F).epsilon ≤ 1 / 10 ^ 15 := by
  constructor
  · show 1024 * (2 : ℝ) ^ ((-1074 : ℤ) - 1) ≤ 2 ^ (1 - ((53 : ℕ) : ℤ)) * 2 ^ (-(53 : ℕ) : ℤ)
    calc 1024 * (2 : ℝ) ^ ((-1074 : ℤ) - 1) ≤ 1024 * 2 ^ (-200 : ℤ) := by
          gcongr
          · norm_num
          · norm_num
      _ ≤ _ := by norm_num
  · show (2 : ℝ) ^ (1 - ((53 : ℕ) : ℤ)) ≤ _
    norm_num

/-- `C103_float_quadratic`: an arch and the same arch eight units to the right.  The computed boxes
are far enough apart, so the curves do not meet. -/
example {s t : ℝ} (s0 : 0 ≤ s) (s1 : s ≤ 1) (t0 : 0 ≤ t) (t1 : t ≤ 1) :
    (⟨pt 0 0, pt 1 1, pt 2 0⟩ : QuadraticBezier (PointN (Fl F) 2)).real.eval s
      ≠ (⟨pt 8 0, pt 9 1, pt 10 0⟩ : QuadraticBezier (PointN (Fl F) 2)).real.eval t := by
  obtain ⟨hu, he, hm⟩ := b64_small cosI acosI powI
  obtain ⟨hη, hε⟩ := b64_eta_epsilon cosI acosI powI
  have bd := smallPoint_bounded cosI acosI powI
  have hu' : (F).u ≤ 1 / 1024 := hu.trans (by norm_num)
  have hm' : 9 * (10 : ℝ) + 2 ≤ (F).max := le_trans (by norm_num) hm
  obtain ⟨b, e, h⟩ := C84_quadratic (⟨pt 0 0, pt 1 1, pt 2 0⟩ : QuadraticBezier (PointN (Fl F) 2))
    (M := 10) hu' hη (bd _ _) (bd _ _) (bd _ _) hm' (by norm_num)
  obtain ⟨b', e', h'⟩ := C84_quadratic
    (⟨pt 8 0, pt 9 1, pt 10 0⟩ : QuadraticBezier (PointN (Fl F) 2))
    (M := 10) hu' hη (bd _ _) (bd _ _) (bd _ _) hm' (by norm_num)
  refine C103_float_quadratic _ _ (M := 10) hu' hη (bd _ _) (bd _ _) (bd _ _) (bd _ _) (bd _ _)
    (bd _ _) hm' (by norm_num) e e' 0 ?_ s0 s1 t0 t1
  obtain ⟨_, _, _, x, ⟨x0, x1⟩, hx⟩ := h 0
  obtain ⟨_, _, ⟨y, ⟨y0, y1⟩, hy⟩, _⟩ := h' 0
  simp only [smallPoint_zero] at hx hy
  norm_num at hx hy
  rw [abs_le] at hx hy
  nlinarith [hx.2, hy.1]

/-- `C103_float_cubic`: two curves which are not nearly quadratic on the first axis. -/
example {s t : ℝ} (s0 : 0 ≤ s) (s1 : s ≤ 1) (t0 : 0 ≤ t) (t1 : t ≤ 1) :
    (⟨pt 0 0, pt 3 1, pt 0 2, pt 3 0⟩ : CubicBezier (PointN (Fl F) 2)).real.eval s
      ≠ (⟨pt 7 0, pt 10 1, pt 7 2, pt 10 0⟩ : CubicBezier (PointN (Fl F) 2)).real.eval t := by
  obtain ⟨hu, he, hm⟩ := b64_small cosI acosI powI
  obtain ⟨hη, hε⟩ := b64_eta_epsilon cosI acosI powI
  have u0 := (F).u_nonneg
  have e0 := (F).eta_nonneg
  have bd := smallPoint_bounded cosI acosI powI
  have hu' : (F).u ≤ 1 / 1024 := hu.trans (by norm_num)
  have hη1 : (F).eta ≤ (F).u := by nlinarith
  have he' : (F).eta ≤ 1 / 1024 := hη1.trans hu'
  obtain ⟨b, e, h⟩ := C84_cubic_partial
    (⟨pt 0 0, pt 3 1, pt 0 2, pt 3 0⟩ : CubicBezier (PointN (Fl F) 2))
    (M := 10) hu' he' (bd _ _) (bd _ _) (bd _ _) (bd _ _) (le_trans (by norm_num) hm) (by norm_num)
  obtain ⟨b', e', h'⟩ := C84_cubic_partial
    (⟨pt 7 0, pt 10 1, pt 7 2, pt 10 0⟩ : CubicBezier (PointN (Fl F) 2))
    (M := 10) hu' he' (bd _ _) (bd _ _) (bd _ _) (bd _ _) (le_trans (by norm_num) hm) (by norm_num)
  refine C103_float_cubic _ _ (M := 10) (κ := 1) hu' hη1 (by nlinarith) (bd _ _) (bd _ _) (bd _ _)
    (bd _ _) (bd _ _) (bd _ _) (bd _ _) (bd _ _) (le_trans (by norm_num) hm)
    (le_trans (by norm_num) hm) (by norm_num) (by norm_num) (by nlinarith) e e' 0 ?_ ?_ ?_
    s0 s1 t0 t1
  · simp only [smallPoint_zero]
    norm_num
  · simp only [smallPoint_zero]
    norm_num
  · obtain ⟨_, _, _, _, x, ⟨x0, x1⟩, hx⟩ := h 0
    obtain ⟨_, _, _, ⟨y, ⟨y0, y1⟩, hy⟩, _⟩ := h' 0
    simp only [smallPoint_zero] at hx hy
    norm_num at hx hy
    rw [abs_le] at hx hy
    have k1 : 3 * x * (1 - x) ^ 2 * 3 + x ^ 3 * 3 ≤ 3 := by
      nlinarith [mul_nonneg x0 (sub_nonneg.2 x1), mul_nonneg (sq_nonneg x) (sub_nonneg.2 x1),
        mul_nonneg x0 (sq_nonneg (1 - x)), pow_nonneg (sub_nonneg.2 x1) 3]
    have k2 : 7 ≤ (1 - y) ^ 3 * 7 + 3 * y * (1 - y) ^ 2 * 10 + 3 * y ^ 2 * (1 - y) * 7 + y ^ 3 * 10 := by
      nlinarith [mul_nonneg y0 (sub_nonneg.2 y1), mul_nonneg (sq_nonneg y) (sub_nonneg.2 y1),
        mul_nonneg y0 (sq_nonneg (1 - y)), pow_nonneg (sub_nonneg.2 y1) 3, pow_nonneg y0 3]
    norm_num
    linarith [hx.2, hy.1]

/-- `C109_cubic_axis`: a curve with an infinite and a NaN control point; its box is spanned by the
end points. -/
example : ∃ box : Arr (Fl F × Fl F) 1,
    (⟨⟨fun _ => lit 5⟩, ⟨fun _ => inf true⟩, ⟨fun _ => nan⟩, ⟨fun _ => lit 3⟩⟩ :
      CubicBezier (PointN (Fl F) 1)).boundingBox = some box ∧ box 0 = (lit 3, lit 5) := by
  have e5 : (lit 5 : Fl F) = fin 5 _ := lit_int 5 (by norm_num)
  have e3 : (lit 3 : Fl F) = fin 3 _ := lit_int 3 (by norm_num)
  obtain ⟨-, h2, -, -⟩ := C109_ieee cosI acosI powI 1
  obtain ⟨box, hb⟩ := Option.ne_none_iff_exists'.1 (fun h => by
    obtain ⟨i, h | h⟩ := (h2 ⟨⟨fun _ => lit 5⟩, ⟨fun _ => inf true⟩, ⟨fun _ => nan⟩,
      ⟨fun _ => lit 3⟩⟩).1 h
    · change (lit 5 : Fl F) = nan at h
      rw [e5] at h
      cases h
    · change (lit 3 : Fl F) = nan at h
      rw [e3] at h
      cases h)
  refine ⟨box, hb, ?_⟩
  rw [C109_cubic_axis _ hb 0 (fun h => h.2.1)]
  show minmax (lit 5 : Fl F) (lit 3) = _
  unfold minmax
  rw [if_pos]
  rw [e5, e3, lt_fin]
  norm_num

theorem small_round {x : ℝ} (h : |x| ≤ 100) : ((F).round x).IsFinite := by
  obtain ⟨hu, he, hm⟩ := b64_small cosI acosI powI
  obtain ⟨z, hz, e, -⟩ := round_step (y := x) (ex := 0) (hu.trans (by norm_num)) h (by simp)
    (le_trans (by linarith) hm)
  rw [e]
  trivial

theorem small_sub (a b c d : Fin 11) : FinitePoint (pt a b - pt c d) := by
  have bd := smallPoint_bounded cosI acosI powI
  intro i
  obtain ⟨x, hx, e1⟩ := isFinite_iff.1 (bd a b i).1
  obtain ⟨y, hy, e2⟩ := isFinite_iff.1 (bd c d i).1
  have b1 := (bd a b i).2
  have b2 := (bd c d i).2
  show ((pt a b).coords i - (pt c d).coords i).IsFinite
  rw [e1, e2] at *
  rw [fin_sub]
  rw [toReal_fin] at b1 b2
  exact small_round cosI acosI powI ((abs_sub _ _).trans (by linarith))

/-- `C60_quadratic`, `C61_start` and `C97_line_between`. -/
example : (smallQuad cosI acosI powI).eval (lit 0 : Fl F) = pt 0 0 ∧
    (smallQuad cosI acosI powI).eval (lit 1 : Fl F) = pt 4 0 ∧
    (smallCubic cosI acosI powI).evalCasteljau (lit 0 : Fl F) = pt 0 0 ∧
    Scalar.lt (((⟨pt 1 0, pt 4 0⟩ : LineSegment (PointN (Fl F) 2)).eval
      (lit 1 : Fl F)).coords 0) ((pt 1 0).coords 0) = false := by
  obtain ⟨hu, he, hm⟩ := b64_small cosI acosI powI
  have bd := smallPoint_bounded cosI acosI powI
  have ff : ∀ a b, FinitePoint (pt a b) := fun a b i => (bd a b i).1
  have e2 : (lit 2 : Fl F) = fin 2 _ := lit_int 2 (by norm_num)
  have e1 : (lit 1 : Fl F) = fin 1 _ := lit_one
  have e0 : (lit 0 : Fl F) = fin 0 _ := lit_zero
  obtain ⟨q0, q1⟩ := C60_quadratic (smallQuad cosI acosI powI) (ff 0 0) (fun i => by
    obtain ⟨x, hx, ex⟩ := isFinite_iff.1 (bd 2 1 i).1
    have b1 := (bd 2 1 i).2
    show ((pt 2 1).coords i * lit 2).IsFinite
    rw [ex] at b1 ⊢
    rw [e2, fin_mul]
    rw [toReal_fin] at b1
    refine small_round cosI acosI powI ?_
    rw [abs_mul, abs_of_pos (by norm_num : (0 : ℝ) < 2)]
    linarith) (ff 4 0)
  obtain ⟨-, -, c0⟩ := C61_start (pt 0 0) (pt 0 4) (pt 4 0) (pt 4 4) (ff _ _) (ff _ _) (ff _ _)
    (small_sub cosI acosI powI _ _ _ _) (small_sub cosI acosI powI _ _ _ _)
    (small_sub cosI acosI powI _ _ _ _)
  refine ⟨q0, q1, c0, ?_⟩
  refine ((C97_line_between (⟨pt 1 0, pt 4 0⟩ : LineSegment (PointN (Fl F) 2)) 0
    ?_ ?_).1 ?_).1
  · rw [e0, e1, le_fin]; norm_num
  · rw [e1, le_fin]
  · show Scalar.le (fin _ _ : Fl F) (fin _ _) = true
    rw [le_fin]; norm_num

/-- `C60_overflow`: doubling the largest finite number gives infinity. -/
example : ((⟨pt 0 0, ⟨fun _ => fin (F).max ⟨(F).max_mem, by
      rw [abs_of_pos (F).max_pos]⟩⟩, pt 4 0⟩ : QuadraticBezier (PointN (Fl F) 2)).eval
      (lit 0 : Fl F)).coords 0 = nan := by
  obtain ⟨hu, he, hm⟩ := b64_small cosI acosI powI
  refine (C60_overflow _ 0 (s := false) ?_).1
  show (fin (F).max _ : Fl F) * lit 2 = inf false
  have e2 : (lit 2 : Fl F) = fin 2 _ := lit_int 2 (by norm_num)
  rw [e2, fin_mul]
  have m0 := (F).max_pos
  have h := (F).rnd_err ((F).max * 2)
  refine round_inf (by positivity) ?_
  rw [abs_le, abs_of_pos (by positivity)] at h
  nlinarith [h.1]

end Binary64

/-! ### Intersections -/

/-- `C120_complete_cubics` and `C120_sound_cubics`: two cubic arcs with the same start. -/
example (n : ℕ) : ∃ i j : ℕ, (i, j) ∈ intersect CubicBezier.halve CubicBezier.halve
      CubicBezier.boundingBox CubicBezier.boundingBox eps n
      (CubicBezier.new (pt2 0 0) (pt2 1 2) (pt2 2 2) (pt2 3 0))
      (CubicBezier.new (pt2 0 0) (pt2 2 1) (pt2 2 2) (pt2 0 3)) ∧ i < 2 ^ n ∧ j < 2 ^ n := by
  have he := eps_pos
  obtain ⟨i, j, h, -⟩ := C120_complete_cubics (m := eps)
    (CubicBezier.new (pt2 0 0) (pt2 1 2) (pt2 2 2) (pt2 3 0))
    (CubicBezier.new (pt2 0 0) (pt2 2 1) (pt2 2 2) (pt2 0 3)) n (by linarith)
    (s := 0) (t := 0) le_rfl zero_le_one le_rfl zero_le_one
    (by rw [(C20_endpoints _).1, (C20_endpoints _).1]; rfl)
  have := C120_sound_cubics _ _ n h
  exact ⟨i, j, h, this.1, this.2.1⟩

/-- `C120_complete_mixed` and `C120_sound_mixed`: a parabola and a cubic arc with the same start. -/
example (n : ℕ) : ∃ i j : ℕ, (i, j) ∈ intersect QuadraticBezier.halve CubicBezier.halve
      QuadraticBezier.boundingBox CubicBezier.boundingBox eps n
      (QuadraticBezier.new (pt2 0 0) (pt2 1 2) (pt2 2 0))
      (CubicBezier.new (pt2 0 0) (pt2 2 1) (pt2 2 2) (pt2 0 3)) ∧ i < 2 ^ n ∧ j < 2 ^ n := by
  have he := eps_pos
  obtain ⟨i, j, h, -⟩ := C120_complete_mixed (m := eps)
    (QuadraticBezier.new (pt2 0 0) (pt2 1 2) (pt2 2 0))
    (CubicBezier.new (pt2 0 0) (pt2 2 1) (pt2 2 2) (pt2 0 3)) n (by linarith)
    (s := 0) (t := 0) le_rfl zero_le_one le_rfl zero_le_one
    (by rw [(C10_endpoints _).1, (C20_endpoints _).1]; rfl)
  have := C120_sound_mixed _ _ n h
  exact ⟨i, j, h, this.1, this.2.1⟩

end Stroke
