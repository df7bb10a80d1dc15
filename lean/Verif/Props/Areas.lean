import Verif.Props.MeanPoint
import Mathlib.Analysis.SpecialFunctions.Integrals.Basic

set_option linter.unusedSectionVars false

/-!
# The area swept by a curve (C158)

The area between a curve and the origin, `1/2 ∫ (x y' - y x') dt` with the points from `eval` and the velocities
from `derivative`, has a closed formula in the control points.  It is additive under `split`, changes its sign
when the curve is reversed, and differs for a quadratic from that of its baseline by two thirds of the area of
the triangle of its control points (Archimedes).
-/

namespace Stroke

open MeasureTheory intervalIntegral

variable {P : Type} [Point ℝ P] [LawfulPoint P]

/-- The determinant of the coordinates `a` and `b` of two points. -/
noncomputable def cross (p q : P) (a b : ℕ) : ℝ := coord p a * coord q b - coord p b * coord q a

/-- The area that the segment from the origin to a point sweeps (in the plane of the axes `a` and `b`), while
the point moves along `f` with the velocity `g`. -/
noncomputable def sweptArea (f g : ℝ → P) (a b : ℕ) : ℝ := (∫ t in (0 : ℝ)..1, cross (f t) (g t) a b) / 2

theorem integral_polynomial (m : ℕ) (c : ℕ → ℝ) :
    ∫ t in (0 : ℝ)..1, ∑ k ∈ Finset.range m, c k * t ^ k = ∑ k ∈ Finset.range m, c k / (k + 1) := by
  rw [intervalIntegral.integral_finsetSum fun k _ =>
    (by fun_prop : Continuous fun t : ℝ => c k * t ^ k).intervalIntegrable _ _]
  refine Finset.sum_congr rfl fun k _ => ?_
  rw [intervalIntegral.integral_const_mul, integral_pow]
  simp
  ring

theorem integral_polynomial_five (c0 c1 c2 c3 c4 c5 : ℝ) :
    ∫ t in (0 : ℝ)..1, (c0 + c1 * t + c2 * t ^ 2 + c3 * t ^ 3 + c4 * t ^ 4 + c5 * t ^ 5)
      = c0 + c1 / 2 + c2 / 3 + c3 / 4 + c4 / 5 + c5 / 6 := by
  have h := integral_polynomial 6 (fun k => if k = 0 then c0 else if k = 1 then c1 else if k = 2 then c2
    else if k = 3 then c3 else if k = 4 then c4 else c5)
  simp only [Finset.sum_range_succ, Finset.sum_range_zero] at h
  norm_num at h
  exact h

/-- **C158**: the area swept by a line segment. -/
theorem C158_line (l : LineSegment P) (a b : ℕ) :
    sweptArea (fun t => l.eval t) (fun _ => l.derivative) a b = cross l.start l.end_ a b / 2 := by
  unfold sweptArea
  have e : ∀ t : ℝ, cross (l.eval t) l.derivative a b = cross l.start l.end_ a b := by
    intro t
    simp only [cross, C05_eval, LineSegment.derivative, coord_sub]
    ring
  simp [e]

/-- **C158**: the area swept by a quadratic. -/
theorem C158_quadratic (q : QuadraticBezier P) (a b : ℕ) :
    sweptArea (fun t => q.eval t) (fun t => q.derivative.eval t) a b
      = (2 * cross q.start q.ctrl a b + 2 * cross q.ctrl q.end_ a b + cross q.start q.end_ a b) / 6 := by
  unfold sweptArea
  have e : ∀ t : ℝ, cross (q.eval t) (q.derivative.eval t) a b
      = 2 * cross q.start q.ctrl a b + (2 * cross q.start q.end_ a b - 4 * cross q.start q.ctrl a b) * t
        + (2 * cross q.start q.ctrl a b + 2 * cross q.ctrl q.end_ a b - 2 * cross q.start q.end_ a b) * t ^ 2
        + 0 * t ^ 3 + 0 * t ^ 4 + 0 * t ^ 5 := by
    intro t
    simp only [cross, C10_eval, C05_eval, QuadraticBezier.derivative, coord_sub, coord_mul]
    simp
    ring
  simp only [e]
  rw [integral_polynomial_five]
  ring

/-- **C158**: the area swept by a cubic. -/
theorem C158_cubic (q : CubicBezier P) (a b : ℕ) :
    sweptArea (fun t => q.eval t) (fun t => q.derivative.eval t) a b
      = (6 * cross q.start q.ctrl1 a b + 3 * cross q.start q.ctrl2 a b + cross q.start q.end_ a b
        + 3 * cross q.ctrl1 q.ctrl2 a b + 3 * cross q.ctrl1 q.end_ a b + 6 * cross q.ctrl2 q.end_ a b) / 20 := by
  unfold sweptArea
  have e : ∀ t : ℝ, cross (q.eval t) (q.derivative.eval t) a b
      = 3 * cross q.start q.ctrl1 a b
        + (6 * cross q.start q.ctrl2 a b - 12 * cross q.start q.ctrl1 a b) * t
        + (18 * cross q.start q.ctrl1 a b - 18 * cross q.start q.ctrl2 a b + 3 * cross q.start q.end_ a b
          + 9 * cross q.ctrl1 q.ctrl2 a b) * t ^ 2
        + (-12 * cross q.start q.ctrl1 a b + 18 * cross q.start q.ctrl2 a b - 6 * cross q.start q.end_ a b
          - 18 * cross q.ctrl1 q.ctrl2 a b + 6 * cross q.ctrl1 q.end_ a b) * t ^ 3
        + (3 * cross q.start q.ctrl1 a b - 6 * cross q.start q.ctrl2 a b + 3 * cross q.start q.end_ a b
          + 9 * cross q.ctrl1 q.ctrl2 a b - 6 * cross q.ctrl1 q.end_ a b + 3 * cross q.ctrl2 q.end_ a b) * t ^ 4
        + 0 * t ^ 5 := by
    intro t
    simp only [cross, C20_eval, C10_eval, CubicBezier.derivative, coord_sub, coord_mul]
    simp
    ring
  simp only [e]
  rw [integral_polynomial_five]
  ring

theorem bernstein_mul {n m i j : ℕ} (hi : i ≤ n) (hj : j ≤ m) (t : ℝ) :
    bernstein n i t * bernstein m j t
      = (n.choose i : ℝ) * m.choose j / (n + m).choose (i + j) * bernstein (n + m) (i + j) t := by
  have c0 : ((n + m).choose (i + j) : ℝ) ≠ 0 := by exact_mod_cast (Nat.choose_pos (by omega)).ne'
  unfold bernstein
  rw [show n + m - (i + j) = (n - i) + (m - j) by omega, pow_add, pow_add]
  field_simp

/-- **C158**: the area swept by a Bezier curve of any degree `n + 1`. -/
theorem C158_bezier {n : ℕ} (q : Bezier P (n + 2)) :
    ∃ (d : Bezier P (n + 1)) (f g : ℝ → P), Bezier.derivative (S := ℝ) q = some d ∧
      (∀ t, q.eval t = some (f t)) ∧ (∀ t, d.eval t = some (g t)) ∧ ∀ a b, sweptArea f g a b
        = (∑ i : Fin (n + 2), ∑ j : Fin (n + 1),
            ((n + 1).choose i.val : ℝ) * n.choose j.val / (2 * n + 1).choose (i.val + j.val)
              * (cross (q.control_points i) (q.control_points j.succ) a b
                - cross (q.control_points i) (q.control_points j.castSucc) a b)) / 4 := by
  obtain ⟨d, hd, hdc⟩ := C35_partial (S := ℝ) q (by omega)
  choose f hf ef using fun t => C30_eval q (by omega) t
  choose g hg eg using fun t => C30_eval (N := n + 1) d (by omega) t
  refine ⟨d, f, g, hd, hf, hg, fun a b => ?_⟩
  have n0 : (n + 1 : ℝ) ≠ 0 := by positivity
  have dc : ∀ (j : Fin (n + 1)) (c : ℕ), coord (d.control_points j) c
      = (coord (q.control_points j.succ) c - coord (q.control_points j.castSucc) c) * (n + 1) := by
    intro j c
    have := hdc j
    rw [this]
    simp only [coord_mul, coord_sub]
    simp
    left
    rfl
  have e : ∀ t, cross (f t) (g t) a b = ∑ i : Fin (n + 2), ∑ j : Fin (n + 1),
      bernstein (2 * n + 1) (i.val + j.val) t * (((n + 1).choose i.val : ℝ) * n.choose j.val
        / (2 * n + 1).choose (i.val + j.val) * ((n + 1) * (cross (q.control_points i) (q.control_points j.succ) a b
                - cross (q.control_points i) (q.control_points j.castSucc) a b))) := by
    intro t
    have s1 : cross (f t) (g t) a b = ∑ i : Fin (n + 2), ∑ j : Fin (n + 1),
        bernstein (n + 1) i.val t * bernstein n j.val t * cross (q.control_points i) (d.control_points j) a b := by
      simp only [cross, ef, eg, bezierCoord, Bezier.controlPoints, Finset.sum_mul_sum, mul_sub,
        Finset.sum_sub_distrib]
      congr 1 <;> refine Finset.sum_congr rfl fun i _ => Finset.sum_congr rfl fun j _ => ?_ <;>
        simp only [Nat.add_sub_cancel, show n + 2 - 1 = n + 1 from rfl] <;> ring
    rw [s1]
    refine Finset.sum_congr rfl fun i _ => Finset.sum_congr rfl fun j _ => ?_
    rw [bernstein_mul (by omega) (by omega), show n + 1 + n = 2 * n + 1 by omega]
    simp only [cross, dc]
    ring
  have bi := fun (i : Fin (n + 2)) (j : Fin (n + 1)) => bernstein_integral (n := 2 * n + 1) (k := i.val + j.val)
    (by omega)
  unfold sweptArea
  simp only [e]
  rw [intervalIntegral.integral_finsetSum fun i _ => Continuous.intervalIntegrable (by unfold bernstein; fun_prop) _ _,
    Finset.sum_div, Finset.sum_div]
  refine Finset.sum_congr rfl fun i _ => ?_
  rw [intervalIntegral.integral_finsetSum fun j _ => (bi i j).1.mul_const _, Finset.sum_div, Finset.sum_div]
  refine Finset.sum_congr rfl fun j _ => ?_
  rw [intervalIntegral.integral_mul_const, (bi i j).2]
  push_cast
  have : (2 * n + 1 + 1 : ℝ) ≠ 0 := by positivity
  field_simp
  ring

/-- **C158**: the area is additive under `split`, at every parameter.  (For a line segment this holds although
the common end of the two parts is not `eval(t)`, see C06: it is a point of the same line.) -/
theorem C158_split (l : LineSegment P) (q : QuadraticBezier P) (r : CubicBezier P) (t : ℝ) (a b : ℕ) :
    sweptArea (fun s => l.eval s) (fun _ => l.derivative) a b
      = sweptArea (fun s => (l.split t).1.eval s) (fun _ => (l.split t).1.derivative) a b
        + sweptArea (fun s => (l.split t).2.eval s) (fun _ => (l.split t).2.derivative) a b ∧
    sweptArea (fun s => q.eval s) (fun s => q.derivative.eval s) a b
      = sweptArea (fun s => (q.split t).1.eval s) (fun s => (q.split t).1.derivative.eval s) a b
        + sweptArea (fun s => (q.split t).2.eval s) (fun s => (q.split t).2.derivative.eval s) a b ∧
    sweptArea (fun s => r.eval s) (fun s => r.derivative.eval s) a b
      = sweptArea (fun s => (r.split t).1.eval s) (fun s => (r.split t).1.derivative.eval s) a b
        + sweptArea (fun s => (r.split t).2.eval s) (fun s => (r.split t).2.derivative.eval s) a b := by
  refine ⟨?_, ?_, ?_⟩
  · rw [C158_line, C158_line, C158_line]
    simp only [cross, LineSegment.split, coord_add, coord_mul, coord_sub]
    ring
  · rw [C158_quadratic, C158_quadratic, C158_quadratic]
    simp only [cross, QuadraticBezier.split, coord_add, coord_mul, coord_sub]
    ring
  · rw [C158_cubic, C158_cubic, C158_cubic]
    simp only [cross, CubicBezier.split, coord_add, coord_mul, coord_sub]
    ring

theorem coord_derivative_unique {f : ℝ → P} {v w : P} {s : ℝ} (h1 : HasPointDerivAt f (coord v) s) {x : ℝ}
    (h2 : ∀ i < Point.dim P, HasDerivAt (fun u => coord (f u) i) (x * coord w i) s) (i : ℕ) :
    coord v i = x * coord w i := by
  by_cases hi : i < Point.dim P
  · exact (h1 i hi).unique (h2 i hi)
  · rw [coord_out _ hi, coord_out _ hi, mul_zero]

theorem bezier_velocity {n : ℕ} {q : Bezier P (n + 2)} {d : Bezier P (n + 1)} {f g : ℝ → P}
    (hd : Bezier.derivative (S := ℝ) q = some d) (hf : ∀ s, q.eval s = some (f s))
    (hg : ∀ s, d.eval s = some (g s)) (s : ℝ) : HasPointDerivAt f (coord (g s)) s := by
  obtain ⟨d', hd', f', v, hf', hv, h⟩ := C34_derivative q (by omega) s
  rw [hd] at hd'
  obtain rfl := Option.some.inj hd'
  have : d.eval s = some v := hv
  rw [hg] at this
  obtain rfl := Option.some.inj this
  have ef : f = f' := funext fun u => Option.some.inj ((hf u).symm.trans (hf' u))
  rwa [ef]

theorem bezier_continuous {n : ℕ} {q : Bezier P (n + 1)} {f : ℝ → P} (hf : ∀ s, q.eval s = some (f s)) (i : ℕ) :
    Continuous fun s => coord (f s) i := by
  have e : ∀ s, coord (f s) i = bezierCoord q.controlPoints s i := by
    intro s
    obtain ⟨p, hp, e⟩ := C30_eval q (by omega) s
    rw [hf] at hp
    cases hp
    exact e i
  simp only [e, bezierCoord, bernstein]
  fun_prop

/-- **C158**: the same for Bezier curves of every degree. -/
theorem C158_bezier_split {n : ℕ} {q l r : Bezier P (n + 2)} {d dl dr : Bezier P (n + 1)} {t : ℝ}
    (hs : q.split t = some (l, r)) (hd : Bezier.derivative (S := ℝ) q = some d)
    (hdl : Bezier.derivative (S := ℝ) l = some dl) (hdr : Bezier.derivative (S := ℝ) r = some dr)
    {f g fl gl fr gr : ℝ → P} (hf : ∀ s, q.eval s = some (f s)) (hg : ∀ s, d.eval s = some (g s))
    (hfl : ∀ s, l.eval s = some (fl s)) (hgl : ∀ s, dl.eval s = some (gl s))
    (hfr : ∀ s, r.eval s = some (fr s)) (hgr : ∀ s, dr.eval s = some (gr s)) (a b : ℕ) :
    sweptArea f g a b = sweptArea fl gl a b + sweptArea fr gr a b := by
  obtain ⟨l', r', hs', hev⟩ := C33_split q t
  rw [hs] at hs'
  obtain ⟨rfl, rfl⟩ := Prod.mk.inj (Option.some.inj hs')
  have efl : ∀ s, fl s = f (t * s) := fun s =>
    Option.some.inj ((hfl s).symm.trans (((hev (by omega) s).1).trans (hf _)))
  have efr : ∀ s, fr s = f (t + (1 - t) * s) := fun s =>
    Option.some.inj ((hfr s).symm.trans (((hev (by omega) s).2).trans (hf _)))
  have D := bezier_velocity hd hf hg
  have egl : ∀ s i, coord (gl s) i = t * coord (g (t * s)) i := by
    intro s
    refine coord_derivative_unique (bezier_velocity hdl hfl hgl s) fun i hi => ?_
    have := (D (t * s) i hi).comp s ((hasDerivAt_id s).const_mul t)
    simp only [efl]
    rw [mul_one, mul_comm] at this
    exact this
  have egr : ∀ s i, coord (gr s) i = (1 - t) * coord (g (t + (1 - t) * s)) i := by
    intro s
    refine coord_derivative_unique (bezier_velocity hdr hfr hgr s) fun i hi => ?_
    have := (D (t + (1 - t) * s) i hi).comp s (((hasDerivAt_id s).const_mul (1 - t)).const_add t)
    simp only [efr]
    rw [mul_one, mul_comm] at this
    exact this
  have cf := fun i => bezier_continuous (n := n + 1) hf i
  have cg := fun i => bezier_continuous hg i
  have ch : Continuous fun s => cross (f s) (g s) a b :=
    ((cf a).mul (cg b)).sub ((cf b).mul (cg a))
  have il : ∫ s in (0 : ℝ)..1, cross (fl s) (gl s) a b = ∫ s in (0 : ℝ)..t, cross (f s) (g s) a b := by
    have e : ∀ s, cross (fl s) (gl s) a b = t * cross (f (t * s)) (g (t * s)) a b := by
      intro s
      simp only [cross, egl, efl]
      ring
    simp only [e]
    rw [intervalIntegral.integral_const_mul,
      intervalIntegral.mul_integral_comp_mul_left (f := fun s => cross (f s) (g s) a b)]
    simp
  have ir : ∫ s in (0 : ℝ)..1, cross (fr s) (gr s) a b = ∫ s in t..1, cross (f s) (g s) a b := by
    have e : ∀ s, cross (fr s) (gr s) a b
        = (1 - t) * cross (f (t + (1 - t) * s)) (g (t + (1 - t) * s)) a b := by
      intro s
      simp only [cross, egr, efr]
      ring
    simp only [e]
    rw [intervalIntegral.integral_const_mul,
      intervalIntegral.mul_integral_comp_add_mul (f := fun s => cross (f s) (g s) a b)]
    simp
  unfold sweptArea
  rw [il, ir, ← intervalIntegral.integral_add_adjacent_intervals (b := t) (ch.intervalIntegrable _ _)
    (ch.intervalIntegrable _ _), add_div]

/-- **C158**: reversing the control points changes the sign. -/
theorem C158_reverse (q : QuadraticBezier P) (r : CubicBezier P) (a b : ℕ) :
    sweptArea (fun s => (⟨q.end_, q.ctrl, q.start⟩ : QuadraticBezier P).eval s)
        (fun s => (⟨q.end_, q.ctrl, q.start⟩ : QuadraticBezier P).derivative.eval s) a b
      = -sweptArea (fun s => q.eval s) (fun s => q.derivative.eval s) a b ∧
    sweptArea (fun s => (⟨r.end_, r.ctrl2, r.ctrl1, r.start⟩ : CubicBezier P).eval s)
        (fun s => (⟨r.end_, r.ctrl2, r.ctrl1, r.start⟩ : CubicBezier P).derivative.eval s) a b
      = -sweptArea (fun s => r.eval s) (fun s => r.derivative.eval s) a b := by
  constructor
  · rw [C158_quadratic, C158_quadratic]
    simp only [cross]
    ring
  · rw [C158_cubic, C158_cubic]
    simp only [cross]
    ring

/-- **C158**: reversing the control points of a Bezier curve of any degree, or the end points of a line
segment, changes the sign. -/
theorem C158_bezier_reverse (l : LineSegment P) {n : ℕ} (q : Bezier P (n + 2)) :
    (∀ a b, sweptArea (fun s => (⟨l.end_, l.start⟩ : LineSegment P).eval s)
        (fun _ => (⟨l.end_, l.start⟩ : LineSegment P).derivative) a b
      = -sweptArea (fun s => l.eval s) (fun _ => l.derivative) a b) ∧
    ∃ (d d' : Bezier P (n + 1)) (f g f' g' : ℝ → P), Bezier.derivative (S := ℝ) q = some d ∧
      Bezier.derivative (S := ℝ) (⟨fun i => q.control_points i.rev⟩ : Bezier P (n + 2)) = some d' ∧
      (∀ t, q.eval t = some (f t)) ∧ (∀ t, d.eval t = some (g t)) ∧
      (∀ t, (⟨fun i => q.control_points i.rev⟩ : Bezier P (n + 2)).eval t = some (f' t)) ∧
      (∀ t, d'.eval t = some (g' t)) ∧ ∀ a b, sweptArea f' g' a b = -sweptArea f g a b := by
  refine ⟨fun a b => ?_, ?_⟩
  · rw [C158_line, C158_line]
    simp only [cross]
    ring
  obtain ⟨d, f, g, hd, hf, hg, h⟩ := C158_bezier q
  obtain ⟨d', f', g', hd', hf', hg', h'⟩ :=
    C158_bezier (⟨fun i => q.control_points i.rev⟩ : Bezier P (n + 2))
  refine ⟨d, d', f, g, f', g', hd, hd', hf, hg, hf', hg', fun a b => ?_⟩
  rw [h, h', ← neg_div]
  congr 1
  rw [← Equiv.sum_comp Fin.revPerm, ← Finset.sum_neg_distrib]
  refine Finset.sum_congr rfl fun i _ => ?_
  rw [← Equiv.sum_comp Fin.revPerm, ← Finset.sum_neg_distrib]
  refine Finset.sum_congr rfl fun j _ => ?_
  have hi := i.isLt
  have hj := j.isLt
  have e1 : (n + 1).choose (Fin.revPerm i).val = (n + 1).choose i.val := by
    rw [Fin.revPerm_apply, Fin.val_rev, ← Nat.choose_symm (show i.val ≤ n + 1 by omega)]
    congr 1
    omega
  have e2 : n.choose (Fin.revPerm j).val = n.choose j.val := by
    rw [Fin.revPerm_apply, Fin.val_rev, ← Nat.choose_symm (show j.val ≤ n by omega)]
    congr 1
    omega
  have e3 : (2 * n + 1).choose ((Fin.revPerm i).val + (Fin.revPerm j).val)
      = (2 * n + 1).choose (i.val + j.val) := by
    rw [Fin.revPerm_apply, Fin.revPerm_apply, Fin.val_rev, Fin.val_rev,
      ← Nat.choose_symm (show i.val + j.val ≤ 2 * n + 1 by omega)]
    congr 1
    omega
  rw [e1, e2, e3]
  simp only [Fin.revPerm_apply, Fin.rev_rev, Fin.rev_succ, Fin.rev_castSucc]
  ring

/-- **C158** (Archimedes): a quadratic and its baseline enclose two thirds of the triangle of the control
points. -/
theorem C158_archimedes (q : QuadraticBezier P) (a b : ℕ) :
    sweptArea (fun t => q.eval t) (fun t => q.derivative.eval t) a b
        - sweptArea (fun t => q.baseline.eval t) (fun _ => q.baseline.derivative) a b
      = 2 / 3 * (((coord q.ctrl a - coord q.start a) * (coord q.end_ b - coord q.start b)
        - (coord q.ctrl b - coord q.start b) * (coord q.end_ a - coord q.start a)) / 2) := by
  rw [C158_quadratic, C158_line]
  simp only [cross, QuadraticBezier.baseline]
  ring

/-- **C158**: the area of a closed path of `m` cubics does not depend on the position of the origin. -/
theorem C158_closed {m : ℕ} (r : ℕ → CubicBezier P) (hj : ∀ i < m, (r i).end_ = (r (i + 1)).start)
    (hc : (r m).start = (r 0).start) (v : P) (a b : ℕ) :
    ∑ i ∈ Finset.range m, sweptArea (fun t =>
        (⟨(r i).start + v, (r i).ctrl1 + v, (r i).ctrl2 + v, (r i).end_ + v⟩ : CubicBezier P).eval t) (fun t =>
        (⟨(r i).start + v, (r i).ctrl1 + v, (r i).ctrl2 + v, (r i).end_ + v⟩ : CubicBezier P).derivative.eval t) a b
      = ∑ i ∈ Finset.range m, sweptArea (fun t => (r i).eval t) (fun t => (r i).derivative.eval t) a b := by
  rw [← sub_eq_zero, ← Finset.sum_sub_distrib]
  have e : ∀ i ∈ Finset.range m, sweptArea (fun t =>
        (⟨(r i).start + v, (r i).ctrl1 + v, (r i).ctrl2 + v, (r i).end_ + v⟩ : CubicBezier P).eval t) (fun t =>
        (⟨(r i).start + v, (r i).ctrl1 + v, (r i).ctrl2 + v, (r i).end_ + v⟩ : CubicBezier P).derivative.eval t) a b
      - sweptArea (fun t => (r i).eval t) (fun t => (r i).derivative.eval t) a b
      = cross v (r (i + 1)).start a b / 2 - cross v (r i).start a b / 2 := by
    intro i hi
    rw [C158_cubic, C158_cubic, ← hj i (Finset.mem_range.1 hi)]
    simp only [cross, coord_add]
    ring
  rw [Finset.sum_congr rfl e, Finset.sum_range_sub (fun i => cross v (r i).start a b / 2), hc, sub_self]

/-- **C158**: moving a Bezier curve by `v` adds half the determinant of `v` and the chord. -/
theorem C158_translate {n : ℕ} {q q' : Bezier P (n + 2)} {d d' : Bezier P (n + 1)} {v : P}
    (hq : ∀ i, q'.control_points i = q.control_points i + v)
    (hd : Bezier.derivative (S := ℝ) q = some d) (hd' : Bezier.derivative (S := ℝ) q' = some d')
    {f g f' g' : ℝ → P} (hf : ∀ s, q.eval s = some (f s)) (hg : ∀ s, d.eval s = some (g s))
    (hf' : ∀ s, q'.eval s = some (f' s)) (hg' : ∀ s, d'.eval s = some (g' s)) (a b : ℕ) :
    sweptArea f' g' a b = sweptArea f g a b
      + (cross v (q.control_points (Fin.last (n + 1))) a b - cross v (q.control_points 0) a b) / 2 := by
  have ef : ∀ s i, coord (f' s) i = coord (f s) i + coord v i := by
    intro s i
    obtain ⟨p, hp, e⟩ := C30_eval q (by omega) s
    obtain ⟨p', hp', e'⟩ := C30_eval q' (by omega) s
    rw [hf] at hp
    rw [hf'] at hp'
    cases hp
    cases hp'
    rw [e, e']
    have one := bernstein_sum (n + 1) s
    rw [← Fin.sum_univ_eq_sum_range (fun k => bernstein (n + 1) k s) (n + 1 + 1)] at one
    simp only [bezierCoord, Bezier.controlPoints, hq, coord_add, mul_add, Finset.sum_add_distrib]
    rw [← Finset.sum_mul, show n + 2 - 1 = n + 1 from rfl, one, one_mul]
  have D := bezier_velocity hd hf hg
  have eg : ∀ s i, coord (g' s) i = coord (g s) i := by
    intro s i
    rw [← one_mul (coord (g s) i)]
    refine coord_derivative_unique (bezier_velocity hd' hf' hg' s) (fun i hi => ?_) i
    simp only [ef, one_mul]
    exact (D s i hi).add_const _
  have cg := fun i => bezier_continuous hg i
  have cf := fun i => bezier_continuous (n := n + 1) hf i
  have h0 : f 0 = q.control_points 0 :=
    Option.some.inj ((hf 0).symm.trans (C31_endpoints q (by omega)).1)
  have h1 : f 1 = q.control_points (Fin.last (n + 1)) :=
    Option.some.inj ((hf 1).symm.trans (C31_endpoints q (by omega)).2)
  have I : ∀ i, ∫ s in (0 : ℝ)..1, coord (g s) i
      = coord (q.control_points (Fin.last (n + 1))) i - coord (q.control_points 0) i := by
    intro i
    rw [← h0, ← h1]
    by_cases hi : i < Point.dim P
    · exact integral_eq_sub_of_hasDerivAt (fun s _ => D s i hi) ((cg i).intervalIntegrable _ _)
    · simp only [coord_out _ hi, sub_self, intervalIntegral.integral_zero]
  have e : ∀ s, cross (f' s) (g' s) a b
      = cross (f s) (g s) a b + (coord v a * coord (g s) b - coord v b * coord (g s) a) := by
    intro s
    simp only [cross, ef, eg]
    ring
  unfold sweptArea
  simp only [e]
  have c1 : Continuous fun s => cross (f s) (g s) a b := ((cf a).mul (cg b)).sub ((cf b).mul (cg a))
  have c2 : Continuous fun s => coord v a * coord (g s) b := continuous_const.mul (cg b)
  have c3 : Continuous fun s => coord v b * coord (g s) a := continuous_const.mul (cg a)
  have c4 : Continuous fun s => coord v a * coord (g s) b - coord v b * coord (g s) a := c2.sub c3
  rw [integral_add (c1.intervalIntegrable _ _) (c4.intervalIntegrable _ _),
    integral_sub (c2.intervalIntegrable _ _) (c3.intervalIntegrable _ _),
    intervalIntegral.integral_const_mul, intervalIntegral.integral_const_mul, I, I]
  simp only [cross]
  ring

/-- **C158**: the area of a closed path of `m` Bezier curves of any degrees does not depend on the position of
the origin. -/
theorem C158_bezier_closed {m : ℕ} {n : ℕ → ℕ} {q q' : (i : ℕ) → Bezier P (n i + 2)}
    {d d' : (i : ℕ) → Bezier P (n i + 1)} {v : P}
    (hj : ∀ i < m, (q i).control_points (Fin.last _) = (q (i + 1)).control_points 0)
    (hc : (q m).control_points 0 = (q 0).control_points 0)
    (hq : ∀ i k, (q' i).control_points k = (q i).control_points k + v)
    (hd : ∀ i, Bezier.derivative (S := ℝ) (q i) = some (d i))
    (hd' : ∀ i, Bezier.derivative (S := ℝ) (q' i) = some (d' i)) {f g f' g' : ℕ → ℝ → P}
    (hf : ∀ i s, (q i).eval s = some (f i s)) (hg : ∀ i s, (d i).eval s = some (g i s))
    (hf' : ∀ i s, (q' i).eval s = some (f' i s)) (hg' : ∀ i s, (d' i).eval s = some (g' i s)) (a b : ℕ) :
    ∑ i ∈ Finset.range m, sweptArea (f' i) (g' i) a b = ∑ i ∈ Finset.range m, sweptArea (f i) (g i) a b := by
  rw [← sub_eq_zero, ← Finset.sum_sub_distrib]
  have e : ∀ i ∈ Finset.range m, sweptArea (f' i) (g' i) a b - sweptArea (f i) (g i) a b
      = cross v ((q (i + 1)).control_points 0) a b / 2 - cross v ((q i).control_points 0) a b / 2 := by
    intro i hi
    rw [C158_translate (hq i) (hd i) (hd' i) (hf i) (hg i) (hf' i) (hg' i), hj i (Finset.mem_range.1 hi)]
    ring
  rw [Finset.sum_congr rfl e, Finset.sum_range_sub (fun i => cross v ((q i).control_points 0) a b / 2), hc,
    sub_self]

/-! ### The hypotheses can be met -/

/-- A closed path of two cubics, there and back on different ways. -/
example (p q x y z w : P) : let r : ℕ → CubicBezier P := fun i => if i = 1 then ⟨q, z, w, p⟩ else ⟨p, x, y, q⟩
    (∀ i < 2, (r i).end_ = (r (i + 1)).start) ∧ (r 2).start = (r 0).start := by
  refine ⟨fun i hi => ?_, rfl⟩
  interval_cases i <;> rfl

/-- Every closed path of curves meets the hypotheses of `C158_bezier_closed`; here one closed curve of any
degree, moved by any `v`. -/
example {n : ℕ} (q : Bezier P (n + 2)) (h : q.control_points (Fin.last _) = q.control_points 0) (v : P) :
    ∃ (d d' : Bezier P (n + 1)) (f g f' g' : ℝ → P), Bezier.derivative (S := ℝ) q = some d ∧
      Bezier.derivative (S := ℝ) (⟨fun i => q.control_points i + v⟩ : Bezier P (n + 2)) = some d' ∧
      (∀ t, q.eval t = some (f t)) ∧ (∀ t, d.eval t = some (g t)) ∧
      (∀ t, (⟨fun i => q.control_points i + v⟩ : Bezier P (n + 2)).eval t = some (f' t)) ∧
      (∀ t, d'.eval t = some (g' t)) ∧ sweptArea f' g' 0 1 = sweptArea f g 0 1 := by
  obtain ⟨d, f, g, hd, hf, hg, -⟩ := C158_bezier q
  obtain ⟨d', f', g', hd', hf', hg', -⟩ :=
    C158_bezier (⟨fun i => q.control_points i + v⟩ : Bezier P (n + 2))
  refine ⟨d, d', f, g, f', g', hd, hd', hf, hg, hf', hg', ?_⟩
  have := C158_bezier_closed (m := 1) (n := fun _ => n) (q := fun _ => q) (v := v)
    (q' := fun _ => ⟨fun i => q.control_points i + v⟩) (fun _ _ => h) rfl (fun _ _ => rfl) (fun _ => hd)
    (fun _ => hd') (fun _ => hf) (fun _ => hg) (fun _ => hf') (fun _ => hg') 0 1
  simpa using this

/-- Every curve of degree at least 1 and every parameter meet the hypotheses of `C158_bezier_split`. -/
example {n : ℕ} (q : Bezier P (n + 2)) (t : ℝ) : ∃ (l r : Bezier P (n + 2)) (d dl dr : Bezier P (n + 1))
    (f g fl gl fr gr : ℝ → P), q.split t = some (l, r) ∧ Bezier.derivative (S := ℝ) q = some d ∧
      Bezier.derivative (S := ℝ) l = some dl ∧ Bezier.derivative (S := ℝ) r = some dr ∧
      (∀ s, q.eval s = some (f s)) ∧ (∀ s, d.eval s = some (g s)) ∧ (∀ s, l.eval s = some (fl s)) ∧
      (∀ s, dl.eval s = some (gl s)) ∧ (∀ s, r.eval s = some (fr s)) ∧ (∀ s, dr.eval s = some (gr s)) ∧
      sweptArea f g 0 1 = sweptArea fl gl 0 1 + sweptArea fr gr 0 1 := by
  obtain ⟨l, r, hs, -⟩ := C33_split q t
  obtain ⟨d, f, g, hd, hf, hg, -⟩ := C158_bezier q
  obtain ⟨dl, fl, gl, hdl, hfl, hgl, -⟩ := C158_bezier l
  obtain ⟨dr, fr, gr, hdr, hfr, hgr, -⟩ := C158_bezier r
  exact ⟨l, r, d, dl, dr, f, g, fl, gl, fr, gr, hs, hd, hdl, hdr, hf, hg, hfl, hgl, hfr, hgr,
    C158_bezier_split hs hd hdl hdr hf hg hfl hgl hfr hgr 0 1⟩

/-- The parabola over the chord from (0, 0) to (1, 0) with the control point (1/2, 1). -/
example : sweptArea (fun t => (⟨PointN.new ![0, 0], PointN.new ![1 / 2, 1], PointN.new ![1, 0]⟩ :
      QuadraticBezier (PointN ℝ 2)).eval t)
    (fun t => (⟨PointN.new ![0, 0], PointN.new ![1 / 2, 1], PointN.new ![1, 0]⟩ :
      QuadraticBezier (PointN ℝ 2)).derivative.eval t) 0 1 = -(1 / 3) := by
  rw [C158_quadratic]
  simp [cross, coord, Point.axis, PointN.new, PointN.axis, Arr.get?]
  norm_num

end Stroke
