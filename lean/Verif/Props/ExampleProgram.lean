import Verif.Model.Example
import Verif.Props.FloatBoxCubic
import Verif.Props.FloatArcLength

/-!
# The example program draws the right picture (C104)
-/

set_option linter.unusedSectionVars false

namespace Stroke

open Fl

/-- The point `(x, y)` is in the rectangle `r`, up to `tol`. -/
def InRect (tol : ℝ) {F : FloatFormat} (r : (Fl F × Fl F) × (Fl F × Fl F)) (p : Fl F × Fl F) :
    Prop :=
  (r.1.1.toReal - tol ≤ p.1.toReal ∧ p.1.toReal ≤ r.1.2.toReal + tol) ∧
  (r.2.1.toReal - tol ≤ p.2.toReal ∧ p.2.toReal ≤ r.2.2.toReal + tol)

/-- On which side of the directed line from `a` to `b` the point `p` is: positive on the left. -/
noncomputable def leftOf {F : FloatFormat} (a b p : Fl F × Fl F) : ℝ :=
  (b.1.toReal - a.1.toReal) * (p.2.toReal - a.2.toReal)
    - (b.2.toReal - a.2.toReal) * (p.1.toReal - a.1.toReal)

/-- The point is on the left of every edge of the closed path, up to `tol`. -/
def LeftOfPath (tol : ℝ) {F : FloatFormat} : List (Fl F × Fl F) → Fl F × Fl F → Prop
  | a :: b :: l, p => -tol ≤ leftOf a b p ∧ LeftOfPath tol (b :: l) p
  | _, _ => True

section
variable (cosI acosI : ℝ → ℝ) (powI : ℝ → ℝ → ℝ)

theorem lit_close (q : ℚ) (hq : |q| ≤ 6) : ∃ r h,
    (lit q : Fl (binary64 cosI acosI powI)) = fin r h ∧ |r - q| ≤ 1 / 10 ^ 15 := by
  have hq' : |(q : ℝ)| ≤ 6 := by exact_mod_cast hq
  have hm : |(q : ℝ)| ≤ (binary64 cosI acosI powI).max := hq'.trans
    (by linarith [(binary64 cosI acosI powI).max_ge])
  refine ⟨_, _, FloatFormat.round_of_le _ hm, ?_⟩
  have herr := (binary64 cosI acosI powI).rnd_err q
  have hη := binary64_eta cosI acosI powI
  have hu : (binary64 cosI acosI powI).u = 2 ^ (-53 : ℤ) := rfl
  rw [hu] at herr
  have h1 : (2 : ℝ) ^ (-53 : ℤ) * |(q : ℝ)| ≤ 2 ^ (-53 : ℤ) * 6 :=
    mul_le_mul_of_nonneg_left hq' (by positivity)
  have h2 : (2 : ℝ) ^ (-53 : ℤ) * 6 + 1 / 10 ^ 60 ≤ 1 / 10 ^ 15 := by norm_num
  exact herr.trans ((add_le_add h1 hη).trans h2)

/-- A convex combination of four numbers is between their bounds. -/
theorem cubicAt_between {x0 x1 x2 x3 lo hi t : ℝ} (t0 : 0 ≤ t) (t1 : t ≤ 1)
    (h0 : lo ≤ x0 ∧ x0 ≤ hi) (h1 : lo ≤ x1 ∧ x1 ≤ hi) (h2 : lo ≤ x2 ∧ x2 ≤ hi)
    (h3 : lo ≤ x3 ∧ x3 ≤ hi) : lo ≤ cubicAt x0 x1 x2 x3 t ∧ cubicAt x0 x1 x2 x3 t ≤ hi := by
  have s0 : 0 ≤ 1 - t := by linarith
  have w0 : 0 ≤ (1 - t) ^ 3 := by positivity
  have w1 : 0 ≤ 3 * t * (1 - t) ^ 2 := by positivity
  have w2 : 0 ≤ 3 * t ^ 2 * (1 - t) := by positivity
  have w3 : 0 ≤ t ^ 3 := by positivity
  have e : ∀ x : ℝ, (1 - t) ^ 3 * x + 3 * t * (1 - t) ^ 2 * x + 3 * t ^ 2 * (1 - t) * x + t ^ 3 * x
    = x := by intro x; ring
  unfold cubicAt
  have a0 := mul_le_mul_of_nonneg_left h0.1 w0
  have a1 := mul_le_mul_of_nonneg_left h1.1 w1
  have a2 := mul_le_mul_of_nonneg_left h2.1 w2
  have a3 := mul_le_mul_of_nonneg_left h3.1 w3
  have b0 := mul_le_mul_of_nonneg_left h0.2 w0
  have b1 := mul_le_mul_of_nonneg_left h1.2 w1
  have b2 := mul_le_mul_of_nonneg_left h2.2 w2
  have b3 := mul_le_mul_of_nonneg_left h3.2 w3
  have := e lo
  have := e hi
  constructor <;> linarith

/-- Numbers computed for the chart. -/
theorem chart_op {a : ℝ} {ha : a ∈ (binary64 cosI acosI powI).grid ∧
    |a| ≤ (binary64 cosI acosI powI).max} (h5 : |a| ≤ 5) (q : ℚ) (hq : |q| ≤ 6) :
    |((fin a ha : Fl (binary64 cosI acosI powI)) + lit q).toReal - (a + q)| ≤ 1 / 10 ^ 14 ∧
    |((fin a ha : Fl (binary64 cosI acosI powI)) - lit q).toReal - (a - q)| ≤ 1 / 10 ^ 14 := by
  obtain ⟨r, hr, er, dr⟩ := lit_close cosI acosI powI q hq
  have hq' : |(q : ℝ)| ≤ 6 := by exact_mod_cast hq
  have h5' := abs_le.1 h5
  have hq'' := abs_le.1 hq'
  have dr' := abs_le.1 dr
  have hη := binary64_eta cosI acosI powI
  have hm := (binary64 cosI acosI powI).max_ge
  have hu : (binary64 cosI acosI powI).u = 2 ^ (-53 : ℤ) := rfl
  have key : ∀ x y : ℝ, |x| ≤ 12 → |x - y| ≤ 1 / 10 ^ 15 →
      |((binary64 cosI acosI powI).round x).toReal - y| ≤ 1 / 10 ^ 14 := by
    intro x y hx hxy
    rw [FloatFormat.round_of_le _ (by linarith), toReal_fin]
    have herr := (binary64 cosI acosI powI).rnd_err x
    rw [hu] at herr
    have h1 : (2 : ℝ) ^ (-53 : ℤ) * |x| ≤ 2 ^ (-53 : ℤ) * 12 :=
      mul_le_mul_of_nonneg_left hx (by positivity)
    have h2 : (2 : ℝ) ^ (-53 : ℤ) * 12 + 1 / 10 ^ 60 ≤ 1 / 10 ^ 14 - 1 / 10 ^ 15 := by norm_num
    have h3 := herr.trans ((add_le_add h1 hη).trans h2)
    have h4 := abs_add_le ((binary64 cosI acosI powI).rnd x - x) (x - y)
    rw [sub_add_sub_cancel] at h4
    linarith only [h3, h4, hxy]
  rw [er, fin_add, fin_sub]
  constructor
  · apply key
    · rw [abs_le]; constructor <;> linarith
    · rw [add_sub_add_left_eq_sub]; exact dr
  · apply key
    · rw [abs_le]; constructor <;> linarith
    · rw [sub_sub_sub_cancel_left, abs_sub_comm]; exact dr

theorem prod_close {A B a b : ℝ} (hA : |A - a| ≤ 1 / 10 ^ 14) (hB : |B - b| ≤ 1 / 10 ^ 14)
    (ha : |a| ≤ 10) (hb : |b| ≤ 10) : |A * B - a * b| ≤ 1 / 10 ^ 12 := by
  have e : A * B - a * b = (A - a) * (B - b) + (A - a) * b + a * (B - b) := by ring
  have h1 := abs_add_le ((A - a) * (B - b) + (A - a) * b) (a * (B - b))
  have h2 := abs_add_le ((A - a) * (B - b)) ((A - a) * b)
  rw [← e] at h1
  rw [abs_mul, abs_mul] at h2
  rw [abs_mul] at h1
  have k1 := mul_le_mul hA hB (abs_nonneg _) (by positivity)
  have k2 := mul_le_mul hA hb (abs_nonneg _) (by positivity)
  have k3 := mul_le_mul ha hB (abs_nonneg _) (by positivity)
  norm_num at k1 k2 k3 ⊢
  linarith

/-- A curve whose control points are to the left of a line is to the left of it. -/
theorem left_of_line {ax ay bx b_y x0 y0 x1 y1 x2 y2 x3 y3 px py t : ℝ}
    (h0 : 0 ≤ (bx - ax) * (y0 - ay) - (b_y - ay) * (x0 - ax))
    (h1 : 0 ≤ (bx - ax) * (y1 - ay) - (b_y - ay) * (x1 - ax))
    (h2 : 0 ≤ (bx - ax) * (y2 - ay) - (b_y - ay) * (x2 - ax))
    (h3 : 0 ≤ (bx - ax) * (y3 - ay) - (b_y - ay) * (x3 - ax))
    (t0 : 0 ≤ t) (t1 : t ≤ 1) (hx : |px - cubicAt x0 x1 x2 x3 t| ≤ 1 / 10 ^ 13)
    (hy : |py - cubicAt y0 y1 y2 y3 t| ≤ 1 / 10 ^ 13) (dx : |bx - ax| ≤ 10) (dy : |b_y - ay| ≤ 10) :
    -(1 / 10 ^ 9) ≤ (bx - ax) * (py - ay) - (b_y - ay) * (px - ax) := by
  have s0 : 0 ≤ 1 - t := by linarith
  have e : (bx - ax) * (py - ay) - (b_y - ay) * (px - ax) =
      (bx - ax) * (py - cubicAt y0 y1 y2 y3 t) - (b_y - ay) * (px - cubicAt x0 x1 x2 x3 t)
      + ((1 - t) ^ 3 * ((bx - ax) * (y0 - ay) - (b_y - ay) * (x0 - ax))
      + 3 * t * (1 - t) ^ 2 * ((bx - ax) * (y1 - ay) - (b_y - ay) * (x1 - ax))
      + 3 * t ^ 2 * (1 - t) * ((bx - ax) * (y2 - ay) - (b_y - ay) * (x2 - ax))
      + t ^ 3 * ((bx - ax) * (y3 - ay) - (b_y - ay) * (x3 - ax))) := by
    unfold cubicAt; ring
  have w0 := mul_nonneg (by positivity : 0 ≤ (1 - t) ^ 3) h0
  have w1 := mul_nonneg (by positivity : 0 ≤ 3 * t * (1 - t) ^ 2) h1
  have w2 := mul_nonneg (by positivity : 0 ≤ 3 * t ^ 2 * (1 - t)) h2
  have w3 := mul_nonneg (by positivity : 0 ≤ t ^ 3) h3
  have k1 : |(bx - ax) * (py - cubicAt y0 y1 y2 y3 t)| ≤ 10 * (1 / 10 ^ 13) := by
    rw [abs_mul]; exact mul_le_mul dx hy (abs_nonneg _) (by norm_num)
  have k2 : |(b_y - ay) * (px - cubicAt x0 x1 x2 x3 t)| ≤ 10 * (1 / 10 ^ 13) := by
    rw [abs_mul]; exact mul_le_mul dy hx (abs_nonneg _) (by norm_num)
  have k1 := (abs_le.1 k1).1
  have k2 := (abs_le.1 k2).2
  rw [e]
  norm_num at k1 k2 ⊢
  linarith only [k1, k2, w0, w1, w2, w3]

/-- The quadrilateral of the example contains its curve. -/
theorem example_hull {x0 y0 x1 y1 x2 y2 x3 y3 px py t : ℝ}
    (dx0 : |x0 - 0| ≤ 1 / 10 ^ 15) (dy0 : |y0 - 177 / 100| ≤ 1 / 10 ^ 15)
    (dx1 : |x1 - 11 / 10| ≤ 1 / 10 ^ 15) (dy1 : |y1 - -1| ≤ 1 / 10 ^ 15)
    (dx2 : |x2 - 43 / 10| ≤ 1 / 10 ^ 15) (dy2 : |y2 - 3| ≤ 1 / 10 ^ 15)
    (dx3 : |x3 - 32 / 10| ≤ 1 / 10 ^ 15) (dy3 : |y3 - -4| ≤ 1 / 10 ^ 15)
    (t0 : 0 ≤ t) (t1 : t ≤ 1) (hx : |px - cubicAt x0 x1 x2 x3 t| ≤ 1 / 10 ^ 13)
    (hy : |py - cubicAt y0 y1 y2 y3 t| ≤ 1 / 10 ^ 13) :
    -(1 / 10 ^ 9) ≤ (x1 - x0) * (py - y0) - (y1 - y0) * (px - x0) ∧
    -(1 / 10 ^ 9) ≤ (x3 - x1) * (py - y1) - (y3 - y1) * (px - x1) ∧
    -(1 / 10 ^ 9) ≤ (x2 - x3) * (py - y3) - (y2 - y3) * (px - x3) ∧
    -(1 / 10 ^ 9) ≤ (x0 - x2) * (py - y2) - (y0 - y2) * (px - x2) := by
  have diff : ∀ {u v a b : ℝ}, |u - a| ≤ 1 / 10 ^ 15 → |v - b| ≤ 1 / 10 ^ 15 →
      |(u - v) - (a - b)| ≤ 1 / 10 ^ 14 := by
    intro u v a b h1 h2
    have := abs_sub (u - a) (v - b)
    rw [show u - a - (v - b) = u - v - (a - b) by ring] at this
    refine this.trans ((add_le_add h1 h2).trans (by norm_num))
  have size : ∀ {u v a b : ℝ}, |u - a| ≤ 1 / 10 ^ 15 → |v - b| ≤ 1 / 10 ^ 15 → |a - b| ≤ 9 →
      |u - v| ≤ 10 := by
    intro u v a b h1 h2 h3
    have h4 := diff h1 h2
    have := abs_add_le (u - v - (a - b)) (a - b)
    rw [sub_add_cancel] at this
    refine this.trans ((add_le_add h4 h3).trans (by norm_num))
  have pos : ∀ {ax ay bx b_y qx qy ax' ay' bx' by' qx' qy' : ℝ}, |ax - ax'| ≤ 1 / 10 ^ 15 →
      |ay - ay'| ≤ 1 / 10 ^ 15 → |bx - bx'| ≤ 1 / 10 ^ 15 → |b_y - by'| ≤ 1 / 10 ^ 15 →
      |qx - qx'| ≤ 1 / 10 ^ 15 → |qy - qy'| ≤ 1 / 10 ^ 15 →
      |bx' - ax'| ≤ 10 → |qy' - ay'| ≤ 10 → |by' - ay'| ≤ 10 → |qx' - ax'| ≤ 10 →
      1 / 10 ^ 11 ≤ (bx' - ax') * (qy' - ay') - (by' - ay') * (qx' - ax') →
      0 ≤ (bx - ax) * (qy - ay) - (b_y - ay) * (qx - ax) := by
    intro ax ay bx b_y qx qy ax' ay' bx' by' qx' qy' h1 h2 h3 h4 h5 h6 h7 h8 h9 h10 h
    have k1 := (abs_le.1 (prod_close (diff h3 h1) (diff h6 h2) h7 h8)).1
    have k2 := (abs_le.1 (prod_close (diff h4 h2) (diff h5 h1) h9 h10)).2
    norm_num at k1 k2 h
    linarith only [k1, k2, h]
  have z : ∀ a b c d : ℝ, 0 ≤ (a - b) * (c - c) - (d - c) * (b - b) := by
    intro a b c d; simp
  have z' : ∀ a b c d : ℝ, 0 ≤ (a - b) * (d - c) - (d - c) * (a - b) := by
    intro a b c d; linarith only [mul_comm (a - b) (d - c)]
  refine ⟨?_, ?_, ?_, ?_⟩
  · refine left_of_line (z _ _ _ _) (z' _ _ _ _) (pos dx0 dy0 dx1 dy1 dx2 dy2 ?_ ?_ ?_ ?_ ?_)
      (pos dx0 dy0 dx1 dy1 dx3 dy3 ?_ ?_ ?_ ?_ ?_) t0 t1 hx hy (size dx1 dx0 ?_) (size dy1 dy0 ?_)
      <;> norm_num [abs_le]
  · refine left_of_line (pos dx1 dy1 dx3 dy3 dx0 dy0 ?_ ?_ ?_ ?_ ?_) (z _ _ _ _)
      (pos dx1 dy1 dx3 dy3 dx2 dy2 ?_ ?_ ?_ ?_ ?_) (z' _ _ _ _) t0 t1 hx hy (size dx3 dx1 ?_)
      (size dy3 dy1 ?_) <;> norm_num [abs_le]
  · refine left_of_line (pos dx3 dy3 dx2 dy2 dx0 dy0 ?_ ?_ ?_ ?_ ?_)
      (pos dx3 dy3 dx2 dy2 dx1 dy1 ?_ ?_ ?_ ?_ ?_) (z' _ _ _ _) (z _ _ _ _) t0 t1 hx hy
      (size dx2 dx3 ?_) (size dy2 dy3 ?_) <;> norm_num [abs_le]
  · refine left_of_line (z' _ _ _ _) (pos dx2 dy2 dx0 dy0 dx1 dy1 ?_ ?_ ?_ ?_ ?_) (z _ _ _ _)
      (pos dx2 dy2 dx0 dy0 dx3 dy3 ?_ ?_ ?_ ?_ ?_) t0 t1 hx hy
      (size dx0 dx2 ?_) (size dy0 dy2 ?_) <;> norm_num [abs_le]

theorem near_le {x a B : ℝ} (h : |x - a| ≤ 1 / 10 ^ 15) (hB : |a| + 1 / 10 ^ 15 ≤ B) : |x| ≤ B := by
  have := abs_add_le (x - a) a
  rw [sub_add_cancel] at this
  linarith only [this, h, hB]

theorem near_between {x a lo hi : ℝ} (h : |x - a| ≤ 1 / 10 ^ 15) (h0 : lo + 1 / 10 ^ 15 ≤ a)
    (h1 : a + 1 / 10 ^ 15 ≤ hi) : lo ≤ x ∧ x ≤ hi := by
  have := abs_le.1 h
  constructor <;> linarith only [this, h0, h1]

/-- **C104** The example program, in binary64: nothing panics; it draws 1000 points; every one of
them is inside the rectangle drawn as bounding box (up to `10⁻⁹`) and inside the polygon drawn
as convex hull (up to `10⁻⁹`); and everything it draws — curve, box, polygon, control points — is
inside the chart. -/
theorem C104_picture : ∃ (box : Arr _ 2) (graph : List _),
    exampleBounds (S := Fl (binary64 cosI acosI powI)) = some box ∧
    exampleGraph (S := Fl (binary64 cosI acosI powI)) = some graph ∧
    graph.length = 1000 ∧
    (∀ p ∈ graph, p.1.IsFinite ∧ p.2.IsFinite ∧ InRect (1 / 10 ^ 9) (box 0, box 1) p ∧
      LeftOfPath (1 / 10 ^ 9) exampleHull p) ∧
    ∀ p ∈ graph ++ exampleBoxPath box ++ exampleHull ++ exampleControlPoints,
      InRect 0 (exampleChart box) p := by
  set F := binary64 cosI acosI powI with hF
  have hη := binary64_eta cosI acosI powI
  have hm := binary64_max cosI acosI powI
  have hu : F.u = 2 ^ (-53 : ℤ) := rfl
  rw [← hF] at hη hm
  have hu' : F.u ≤ 1 / 1024 := by rw [hu]; norm_num
  have hη' : F.eta ≤ 1 / 1024 := hη.trans (by norm_num)
  have hη0 := F.eta_nonneg
  -- the literals
  have lc : ∀ q : ℚ, |q| ≤ 6 → ∃ r h, (lit q : Fl F) = fin r h ∧ |r - q| ≤ 1 / 10 ^ 15 :=
    lit_close cosI acosI powI
  obtain ⟨x0, wx0, ex0, dx0⟩ := lc 0 (by norm_num)
  obtain ⟨y0, wy0, ey0, dy0⟩ := lc (177/100) (by norm_num [abs_le])
  obtain ⟨x1, wx1, ex1, dx1⟩ := lc (11/10) (by norm_num [abs_le])
  obtain ⟨y1, wy1, ey1, dy1⟩ := lc (-1) (by norm_num)
  obtain ⟨x2, wx2, ex2, dx2⟩ := lc (43/10) (by norm_num [abs_le])
  obtain ⟨y2, wy2, ey2, dy2⟩ := lc 3 (by norm_num)
  obtain ⟨x3, wx3, ex3, dx3⟩ := lc (32/10) (by norm_num [abs_le])
  obtain ⟨y3, wy3, ey3, dy3⟩ := lc (-4) (by norm_num [abs_le])
  push_cast at dx0 dy0 dx1 dy1 dx2 dy2 dx3 dy3
  set q := exampleCurve (S := Fl F) with hq
  have s0 : q.start.coords 0 = fin x0 wx0 := ex0
  have s1 : q.start.coords 1 = fin y0 wy0 := ey0
  have k0 : q.ctrl1.coords 0 = fin x1 wx1 := ex1
  have k1 : q.ctrl1.coords 1 = fin y1 wy1 := ey1
  have l0 : q.ctrl2.coords 0 = fin x2 wx2 := ex2
  have l1 : q.ctrl2.coords 1 = fin y2 wy2 := ey2
  have e0 : q.end_.coords 0 = fin x3 wx3 := ex3
  have e1 : q.end_.coords 1 = fin y3 wy3 := ey3
  have hb : ∀ p : PointN (Fl F) 2, ∀ x y hx hy, p.coords 0 = fin x hx → p.coords 1 = fin y hy →
      |x| ≤ 5 → |y| ≤ 5 → BoundedBy 5 p := by
    intro p x y hx hy h0 h1 bx by' i
    fin_cases i
    · show (p.coords 0).IsFinite ∧ |(p.coords 0).toReal| ≤ 5
      rw [h0]; exact ⟨trivial, bx⟩
    · show (p.coords 1).IsFinite ∧ |(p.coords 1).toReal| ≤ 5
      rw [h1]; exact ⟨trivial, by'⟩
  have hs : BoundedBy 5 q.start := hb _ _ _ _ _ s0 s1 (near_le dx0 (by norm_num [abs_of_nonneg]))
    (near_le dy0 (by norm_num [abs_of_nonneg]))
  have hk : BoundedBy 5 q.ctrl1 := hb _ _ _ _ _ k0 k1 (near_le dx1 (by norm_num [abs_of_nonneg]))
    (near_le dy1 (by norm_num [abs_of_nonneg]))
  have hl : BoundedBy 5 q.ctrl2 := hb _ _ _ _ _ l0 l1 (near_le dx2 (by norm_num [abs_of_nonneg]))
    (near_le dy2 (by norm_num [abs_of_nonneg]))
  have hd : BoundedBy 5 q.end_ := hb _ _ _ _ _ e0 e1 (near_le dx3 (by norm_num [abs_of_nonneg]))
    (near_le dy3 (by norm_num [abs_of_nonneg]))
  have htiny : 20 * F.u * 5 + 14 * F.eta ≤ 1 / 10 ^ 13 := by
    rw [hu]
    have : 20 * (2 : ℝ) ^ (-53 : ℤ) * 5 + 14 * (1 / 10 ^ 60) ≤ 1 / 10 ^ 13 := by norm_num
    linarith
  -- the box
  obtain ⟨box, hbox, hA⟩ := C84_cubic_partial q (M := 5) hu' hη' hs hk hl hd (by linarith)
    (by norm_num)
  obtain ⟨box', hbox', hB⟩ := C84_cubic_binary64_partial cosI acosI powI q (M := 5) (by norm_num)
    (by norm_num) hs hk hl hd
  obtain rfl : box' = box := Option.some.inj (hbox'.symm.trans hbox)
  have hA0 := hA 0
  have hA1 := hA 1
  have hB0 := hB 0
  have hB1 := hB 1
  simp only [cubic_real_eval, s0, s1, k0, k1, l0, l1, e0, e1, toReal_fin] at hA0 hA1 hB0 hB1
  -- the curve stays inside the control points
  have hX : ∀ t, 0 ≤ t → t ≤ 1 → -(1 / 10 ^ 15) ≤ cubicAt x0 x1 x2 x3 t ∧
      cubicAt x0 x1 x2 x3 t ≤ 43 / 10 + 1 / 10 ^ 15 := fun t t0 t1 =>
    cubicAt_between t0 t1 (near_between dx0 (by norm_num) (by norm_num))
      (near_between dx1 (by norm_num) (by norm_num))
      (near_between dx2 (by norm_num) (by norm_num))
      (near_between dx3 (by norm_num) (by norm_num))
  have hY : ∀ t, 0 ≤ t → t ≤ 1 → -4 - (1 / 10 ^ 15) ≤ cubicAt y0 y1 y2 y3 t ∧
      cubicAt y0 y1 y2 y3 t ≤ 3 + 1 / 10 ^ 15 := fun t t0 t1 =>
    cubicAt_between t0 t1 (near_between dy0 (by norm_num) (by norm_num))
      (near_between dy1 (by norm_num) (by norm_num))
      (near_between dy2 (by norm_num) (by norm_num))
      (near_between dy3 (by norm_num) (by norm_num))
  -- the graph
  have hgraph : ∃ graph : List (Fl F × Fl F), exampleGraph (S := Fl F) = some graph ∧
      graph.length = 1000 ∧ ∀ p ∈ graph, p.1.IsFinite ∧ p.2.IsFinite ∧ ∃ t, 0 ≤ t ∧ t ≤ 1 ∧
        |p.1.toReal - cubicAt x0 x1 x2 x3 t| ≤ 1 / 10 ^ 13 ∧
        |p.2.toReal - cubicAt y0 y1 y2 y3 t| ≤ 1 / 10 ^ 13 := by
    refine forRange_inv (m := Option) (fun i (graph : List (Fl F × Fl F)) => graph.length = i ∧
      ∀ p ∈ graph, p.1.IsFinite ∧ p.2.IsFinite ∧ ∃ t, 0 ≤ t ∧ t ≤ 1 ∧
        |p.1.toReal - cubicAt x0 x1 x2 x3 t| ≤ 1 / 10 ^ 13 ∧
        |p.2.toReal - cubicAt y0 y1 y2 y3 t| ≤ 1 / 10 ^ 13) (Nat.zero_le _) ⟨rfl, by simp⟩ ?_
    rintro i graph - hi ⟨hlen, hall⟩
    obtain ⟨a, -, ha, -, ea, -, ⟨a0, a1, -⟩, -⟩ := step_params
      (binary64_steps cosI acosI powI (k := 1000) (by norm_num)) hu' hη' hi
    have ea' : (Scalar.ofUsize i * lit 1 / Scalar.ofUsize 1000 : Fl F) = fin a ha := ea
    have hx := C67_cubic_casteljau q ha a0 a1 hu' hη' hs hk hl hd (by linarith) 0
    have hy := C67_cubic_casteljau q ha a0 a1 hu' hη' hs hk hl hd (by linarith) 1
    rw [s0, k0, l0, e0] at hx
    rw [s1, k1, l1, e1] at hy
    refine ⟨graph ++ [((q.evalCasteljau (fin a ha)).coords 0,
      (q.evalCasteljau (fin a ha)).coords 1)], ?_, by simp [hlen], ?_⟩
    · simp only [ea']
      rw [axis_pointN (by norm_num : 0 < 2), axis_pointN (by norm_num : 1 < 2)]
      rfl
    · intro p hp
      rw [List.mem_append, List.mem_singleton] at hp
      rcases hp with hp | rfl
      · exact hall p hp
      · exact ⟨hx.1, hy.1, a, a0, a1, hx.2.trans htiny, hy.2.trans htiny⟩
  obtain ⟨graph, hg, hlen, hall⟩ := hgraph
  obtain ⟨⟨flx, fhx⟩, ⟨lx0, hx0⟩, -, ⟨tl, ⟨tl0, tl1⟩, dtl⟩, ⟨th, ⟨th0, th1⟩, dth⟩⟩ := hA0
  obtain ⟨⟨fly, fhy⟩, ⟨ly0, hy0⟩, ⟨ly1, hy1⟩, ⟨sl, ⟨sl0, sl1⟩, dsl⟩, ⟨sh, ⟨sh0, sh1⟩, dsh⟩⟩ := hA1
  have bxl := hX tl tl0 tl1
  have bxh := hX th th0 th1
  have byl := hY sl sl0 sl1
  have byh := hY sh sh0 sh1
  have rng : ∀ {x c lo hi : ℝ}, |x - c| ≤ 20 * F.u * 5 + 14 * F.eta → lo ≤ c ∧ c ≤ hi →
      lo - 1 / 10 ^ 13 ≤ x ∧ x ≤ hi + 1 / 10 ^ 13 := by
    intro x c lo hi h1 h2
    have := abs_le.1 (h1.trans htiny)
    constructor <;> linarith only [this, h2]
  have rxl := rng dtl bxl
  have rxh := rng dth bxh
  have ryl := rng dsl byl
  have ryh := rng dsh byh
  norm_num at rxl rxh ryl ryh
  have lx0 : (box' 0).1.toReal ≤ x0 := by norm_num at lx0; exact lx0
  have hy0 : y0 ≤ (box' 1).2.toReal := by norm_num at hy0; exact hy0
  have ly1 : (box' 1).1.toReal ≤ y3 := by norm_num at ly1; exact ly1
  have nx0 := near_between dx0 (lo := -1 / 10 ^ 14) (hi := 1 / 10 ^ 14) (by norm_num) (by norm_num)
  have ny0 := near_between dy0 (lo := 17 / 10) (hi := 18 / 10) (by norm_num) (by norm_num)
  have ny3 := near_between dy3 (lo := -401 / 100) (hi := -399 / 100) (by norm_num) (by norm_num)
  have hx0 : x0 ≤ (box' 0).2.toReal := by norm_num at hx0; exact hx0
  have hy1 : y3 ≤ (box' 1).2.toReal := by norm_num at hy1; exact hy1
  -- the chart
  have hchart : (exampleChart box').1.1.toReal ≤ -1 ∧ 5 ≤ (exampleChart box').1.2.toReal ∧
      (exampleChart box').2.1.toReal ≤ -9 / 2 ∧ 4 ≤ (exampleChart box').2.2.toReal := by
    obtain ⟨a, ha, ea⟩ := isFinite_iff.1 flx
    obtain ⟨b, hb, eb⟩ := isFinite_iff.1 fly
    obtain ⟨c, hc, ec⟩ := isFinite_iff.1 fhy
    rw [ea, toReal_fin] at lx0 rxl
    rw [eb, toReal_fin] at ly1 ryl
    rw [ec, toReal_fin] at hy0 ryh
    have ca := chart_op cosI acosI powI (ha := ha) (by
      rw [abs_le]; constructor <;> linarith only [lx0, rxl, nx0]) 2 (by norm_num)
    have ca' := chart_op cosI acosI powI (ha := ha) (by
      rw [abs_le]; constructor <;> linarith only [lx0, rxl, nx0]) 6 (by norm_num)
    have cb := chart_op cosI acosI powI (ha := hb) (by
      rw [abs_le]; constructor <;> linarith only [ly1, ryl, ny3]) 1 (by norm_num)
    have cc := chart_op cosI acosI powI (ha := hc) (by
      rw [abs_le]; constructor <;> linarith only [hy0, ryh, ny0]) 3 (by norm_num)
    simp only [exampleChart, ea, eb, ec]
    have ca := (abs_le.1 ca.2).2
    have ca' := (abs_le.1 ca'.1).1
    have cb := (abs_le.1 cb.2).2
    have cc := (abs_le.1 cc.1).1
    norm_num at ca ca' cb cc
    refine ⟨?_, ?_, ?_, ?_⟩
    · exact le_of_sub_nonneg (by linarith only [ca, lx0, rxl, nx0])
    · exact le_of_sub_nonneg (by linarith only [ca', lx0, rxl, nx0])
    · exact le_of_sub_nonneg (by linarith only [cb, ly1, ryl, ny3])
    · exact le_of_sub_nonneg (by linarith only [cc, hy0, ryh, ny0])
  obtain ⟨c1, c2, c3, c4⟩ := hchart
  have hin : ∀ p : Fl F × Fl F, (-1 ≤ p.1.toReal ∧ p.1.toReal ≤ 5) →
      (-9 / 2 ≤ p.2.toReal ∧ p.2.toReal ≤ 4) → InRect 0 (exampleChart box') p := by
    intro p h1 h2
    unfold InRect
    rw [sub_zero, sub_zero, add_zero, add_zero]
    exact ⟨⟨c1.trans h1.1, h1.2.trans c2⟩, ⟨c3.trans h2.1, h2.2.trans c4⟩⟩
  have nx0 := near_between dx0 (lo := -1) (hi := 5) (by norm_num) (by norm_num)
  have nx1 := near_between dx1 (lo := -1) (hi := 5) (by norm_num) (by norm_num)
  have nx2 := near_between dx2 (lo := -1) (hi := 5) (by norm_num) (by norm_num)
  have nx3 := near_between dx3 (lo := -1) (hi := 5) (by norm_num) (by norm_num)
  have ny0 := near_between dy0 (lo := -9 / 2) (hi := 4) (by norm_num) (by norm_num)
  have ny1 := near_between dy1 (lo := -9 / 2) (hi := 4) (by norm_num) (by norm_num)
  have ny2 := near_between dy2 (lo := -9 / 2) (hi := 4) (by norm_num) (by norm_num)
  have ny3 := near_between dy3 (lo := -9 / 2) (hi := 4) (by norm_num) (by norm_num)
  refine ⟨box', graph, hbox, hg, hlen, ?_, ?_⟩
  · intro p hp
    obtain ⟨f1, f2, t, t0, t1, dx, dy⟩ := hall p hp
    refine ⟨f1, f2, ?_, ?_⟩
    · have tx : (5 : ℝ) / 100 ≤ |x3 - 3 * x2 + 3 * x1 - x0| := by
        have h0 := abs_le.1 dx0
        have h1 := abs_le.1 dx1
        have h2 := abs_le.1 dx2
        have h3 := abs_le.1 dx3
        rw [le_abs]; right; linarith only [h0, h1, h2, h3]
      have ty : (5 : ℝ) / 100 ≤ |y3 - 3 * y2 + 3 * y1 - y0| := by
        have h0 := abs_le.1 dy0
        have h1 := abs_le.1 dy1
        have h2 := abs_le.1 dy2
        have h3 := abs_le.1 dy3
        rw [le_abs]; right; linarith only [h0, h1, h2, h3]
      have hx := hB0 tx t t0 t1
      have hy := hB1 ty t t0 t1
      have dx := abs_le.1 dx
      have dy := abs_le.1 dy
      unfold cubicAt at dx dy
      exact ⟨⟨by linarith only [hx, dx], by linarith only [hx, dx]⟩,
        ⟨by linarith only [hy, dy], by linarith only [hy, dy]⟩⟩
    · obtain ⟨h1, h2, h3, h4⟩ := example_hull dx0 dy0 dx1 dy1 dx2 dy2 dx3 dy3 t0 t1 dx dy
      simp only [exampleHull, LeftOfPath, leftOf, ex0, ex1, ex2, ex3, ey0, ey1, ey2, ey3,
        toReal_fin]
      exact ⟨h1, h2, h3, h4, trivial⟩
  · intro p hp
    simp only [List.mem_append] at hp
    rcases hp with ((hp | hp) | hp) | hp
    · obtain ⟨f1, f2, t, t0, t1, dx, dy⟩ := hall p hp
      have hx := hX t t0 t1
      have hy := hY t t0 t1
      have dx := abs_le.1 dx
      have dy := abs_le.1 dy
      apply hin <;> constructor <;> linarith only [hx, hy, dx, dy]
    · simp only [exampleBoxPath, List.mem_cons, List.not_mem_nil, or_false] at hp
      rcases hp with rfl | rfl | rfl | rfl | rfl <;> apply hin <;> constructor <;> simp only [] <;>
        linarith only [rxl, rxh, ryl, ryh]
    · simp only [exampleHull, List.mem_cons, List.not_mem_nil, or_false, ex0, ex1, ex2, ex3, ey0,
        ey1, ey2, ey3] at hp
      rcases hp with rfl | rfl | rfl | rfl | rfl
      · exact hin _ nx0 ny0
      · exact hin _ nx1 ny1
      · exact hin _ nx3 ny3
      · exact hin _ nx2 ny2
      · exact hin _ nx0 ny0
    · simp only [exampleControlPoints, List.mem_cons, List.not_mem_nil, or_false, ex0, ex1, ex2,
        ex3, ey0, ey1, ey2, ey3] at hp
      rcases hp with rfl | rfl | rfl | rfl
      · exact hin _ nx0 ny0
      · exact hin _ nx1 ny1
      · exact hin _ nx2 ny2
      · exact hin _ nx3 ny3

end

/-- **C104** The path drawn as convex hull is closed, and its corners are the control points. -/
theorem C104_path {S : Type} [Scalar S] :
    (exampleHull (S := S)).head? = exampleHull.getLast? ∧
    (exampleHull (S := S)).tail.Perm exampleControlPoints := by
  refine ⟨rfl, ?_⟩
  unfold exampleHull exampleControlPoints
  simp only [List.tail_cons]
  classical
  rw [List.perm_iff_count]
  intro a
  simp only [List.count_cons, List.count_nil]
  omega

end Stroke
