import Verif.Lemmas.IeeeLerp
import Verif.Props.FloatSplit
import Verif.Props.FloatMonotone
import Verif.Props.FloatPropagation

/-!
# Points computed by de Casteljau steps stay exactly within the box of the control points (C108)

No rounding error shows up in the statements: for a parameter in [0, 1) the computed coordinates
lie between the smallest and the largest control coordinate, exactly.
-/

namespace Stroke

variable {F : FloatFormat} {n : ℕ}

open Fl

/-- In the format the rounded step `(b - a) * t` with `t < 1` is not longer than `b - a`. -/
def FloatFormat.ShortSteps (F : FloatFormat) : Prop :=
  ∀ a ∈ F.grid, ∀ b ∈ F.grid, ∀ t ∈ F.grid, 0 ≤ t → t < 1 →
    |F.rnd (F.rnd (b - a) * t)| ≤ |b - a|

/-- **C108**: rounding to nearest, ties to even, in a binary format has this property. -/
theorem ieee_shortSteps (p : ℕ) (emin : ℤ) (emax : ℕ) (hp : 11 ≤ p) (he : emin ≤ 1 - p)
    (cosI acosI : ℝ → ℝ) (powI : ℝ → ℝ → ℝ) :
    (ieee p emin emax hp he cosI acosI powI).ShortSteps := by
  intro a ha b hb t ht t0 t1
  show |ieeeRnd p emin (ieeeRnd p emin (b - a) * t)| ≤ |b - a|
  obtain ⟨x, hx⟩ := ieeeGrid_multiple (p := p) (emin := emin) ha
  obtain ⟨y, hy⟩ := ieeeGrid_multiple (p := p) (emin := emin) hb
  rcases le_total 0 (b - a) with h | h
  · rw [abs_of_nonneg h, abs_of_nonneg
      (ieeeRnd_nonneg (mul_nonneg (ieeeRnd_nonneg h) t0))]
    refine ieeeRnd_step_le (m := y - x) (by omega) ?_ h ht t0 t1
    rw [hx, hy]
    push_cast
    ring
  · have h' : 0 ≤ a - b := by linarith
    have e : ieeeRnd p emin (ieeeRnd p emin (b - a) * t)
        = -ieeeRnd p emin (ieeeRnd p emin (a - b) * t) := by
      rw [← ieeeRnd_neg, show b - a = -(a - b) by ring, ieeeRnd_neg, neg_mul]
    rw [e, abs_neg, abs_of_nonneg (ieeeRnd_nonneg (mul_nonneg (ieeeRnd_nonneg h') t0)),
      abs_sub_comm, abs_of_nonneg h']
    refine ieeeRnd_step_le (m := x - y) (by omega) ?_ h' ht t0 t1
    rw [hx, hy]
    push_cast
    ring

/-- **C108**: in particular `f64` and `f32`. -/
theorem C108_ieee (cosI acosI : ℝ → ℝ) (powI : ℝ → ℝ → ℝ) :
    (binary64 cosI acosI powI).ShortSteps ∧ (binary32 cosI acosI powI).ShortSteps :=
  ⟨ieee_shortSteps _ _ _ _ _ _ _ _, ieee_shortSteps _ _ _ _ _ _ _ _⟩

/-- One interpolation step whose difference does not overflow stays between its end points. -/
theorem lerp_between (hF : F.ShortSteps) {a b r : ℝ} {ha : a ∈ F.grid ∧ |a| ≤ F.max}
    {hb : b ∈ F.grid ∧ |b| ≤ F.max} {hr : r ∈ F.grid ∧ |r| ≤ F.max} (r0 : 0 ≤ r) (r1 : r < 1)
    (hd : |F.rnd (b - a)| ≤ F.max) :
    ∃ v hv, (fin a ha + (fin b hb - fin a ha) * fin r hr : Fl F) = fin v hv ∧
      Min.min a b ≤ v ∧ v ≤ Max.max a b := by
  rw [fin_sub, F.round_of_rnd_le hd, fin_mul]
  have hs := hF a ha.1 b hb.1 r hr.1 r0 r1
  have hm : |F.rnd (b - a) * r| ≤ F.max := by
    rw [abs_mul, abs_of_nonneg r0]
    have := mul_le_mul_of_nonneg_left r1.le (abs_nonneg (F.rnd (b - a)))
    linarith
  rw [F.round_of_le hm, fin_add]
  set s := F.rnd (F.rnd (b - a) * r) with hsdef
  have z0 : F.rnd 0 = 0 := F.rnd_of_mem 0 F.zero_ok.1
  -- the step has the sign of the difference
  have key : Min.min a b ≤ a + s ∧ a + s ≤ Max.max a b := by
    rcases le_total a b with h | h
    · have d0 : 0 ≤ b - a := by linarith
      have : 0 ≤ F.rnd (b - a) := by
        rw [← z0]
        exact F.rnd_mono d0
      have s0 : 0 ≤ s := by
        rw [hsdef, ← z0]
        exact F.rnd_mono (mul_nonneg this r0)
      rw [abs_of_nonneg d0, abs_of_nonneg s0] at hs
      rw [min_eq_left h, max_eq_right h]
      constructor <;> linarith
    · have d0 : b - a ≤ 0 := by linarith
      have : F.rnd (b - a) ≤ 0 := by
        rw [← z0]
        exact F.rnd_mono d0
      have s0 : s ≤ 0 := by
        rw [hsdef, ← z0]
        exact F.rnd_mono (mul_nonpos_of_nonpos_of_nonneg this r0)
      rw [abs_of_nonpos d0, abs_of_nonpos s0] at hs
      rw [min_eq_right h, max_eq_left h]
      constructor <;> linarith
  have gmin : Min.min a b ∈ F.grid := by
    rcases min_choice a b with h | h <;> rw [h]
    exacts [ha.1, hb.1]
  have gmax : Max.max a b ∈ F.grid := by
    rcases max_choice a b with h | h <;> rw [h]
    exacts [ha.1, hb.1]
  have v1 := F.rnd_mono key.1
  have v2 := F.rnd_mono key.2
  rw [F.rnd_of_mem _ gmin] at v1
  rw [F.rnd_of_mem _ gmax] at v2
  have hv : |F.rnd (a + s)| ≤ F.max := by
    have a1 := abs_le.1 ha.2
    have b1 := abs_le.1 hb.2
    rw [abs_le]
    constructor
    · refine le_trans ?_ v1
      exact le_min a1.1 b1.1
    · refine v2.trans ?_
      exact max_le a1.2 b1.2
  exact ⟨_, _, F.round_of_rnd_le hv, v1, v2⟩

/-- The coordinate is a finite number between `lo` and `hi`. -/
def Between (lo hi : ℝ) (x : Fl F) : Prop := x.IsFinite ∧ lo ≤ x.toReal ∧ x.toReal ≤ hi

/-- On every axis the coordinate of the point is a finite number between `lo` and `hi`. -/
def InsideBox (lo hi : Fin n → ℝ) (p : PointN (Fl F) n) : Prop :=
  ∀ i, Between (lo i) (hi i) (p.coords i)

/-- The parameter is a float in [0, 1). -/
def UnitParam (t : Fl F) : Prop := Scalar.le (lit 0) t = true ∧ Scalar.lt t (lit 1) = true

theorem UnitParam.fin {t : Fl F} (h : UnitParam t) : ∃ r hr, t = fin r hr ∧ 0 ≤ r ∧ r < 1 := by
  obtain ⟨h0, h1⟩ := h
  rw [lit_zero] at h0
  rw [lit_one] at h1
  cases t with
  | nan => simp at h0
  | inf s =>
    exfalso
    cases s
    · change decide ((⊤ : EReal) < ((1 : ℝ) : EReal)) = true at h1
      simp at h1
    · change decide (((0 : ℝ) : EReal) ≤ (⊥ : EReal)) = true at h0
      simp at h0
  | fin r hr => exact ⟨r, hr, rfl, le_fin.1 h0, lt_fin.1 h1⟩

theorem Between.lerp (hF : F.ShortSteps) {lo hi : ℝ} (hsize : hi - lo ≤ F.max) {x y t : Fl F}
    (hx : Between lo hi x) (hy : Between lo hi y) (ht : UnitParam t) :
    Between lo hi (x + (y - x) * t) := by
  obtain ⟨r, hr, rfl, r0, r1⟩ := ht.fin
  obtain ⟨fx, x1, x2⟩ := hx
  obtain ⟨fy, y1, y2⟩ := hy
  obtain ⟨a, ha, rfl⟩ := isFinite_iff.1 fx
  obtain ⟨b, hb, rfl⟩ := isFinite_iff.1 fy
  simp only [toReal_fin] at x1 x2 y1 y2
  obtain ⟨v, hv, e, v1, v2⟩ := lerp_between hF (hr := hr) (ha := ha) (hb := hb) r0 r1
    (F.abs_rnd_le F.max_mem (by rw [abs_le]; constructor <;> linarith))
  rw [e]
  refine ⟨trivial, ?_, ?_⟩
  · rw [toReal_fin]
    exact le_trans (le_min x1 y1) v1
  · rw [toReal_fin]
    exact v2.trans (max_le x2 y2)

theorem InsideBox.lerp (hF : F.ShortSteps) {lo hi : Fin n → ℝ} (hsize : ∀ i, hi i - lo i ≤ F.max)
    {p q : PointN (Fl F) n} {t : Fl F} (hp : InsideBox lo hi p) (hq : InsideBox lo hi q)
    (ht : UnitParam t) : InsideBox lo hi (p + (q - p) * t) :=
  fun i => (hp i).lerp hF (hsize i) (hq i) ht

/-! ### Evaluation and subdivision -/

/-- **C108** (line segments): for a parameter in [0, 1) the computed point is in every box which
contains both end points. -/
theorem C108_line (hF : F.ShortSteps) (l : LineSegment (PointN (Fl F) n)) (lo hi : Fin n → ℝ)
    (hsize : ∀ i, hi i - lo i ≤ F.max) (hs : InsideBox lo hi l.start) (he : InsideBox lo hi l.end_)
    {t : Fl F} (ht : UnitParam t) : InsideBox lo hi (l.eval t) :=
  hs.lerp hF hsize he ht

/-- **C108** (quadratic curves): so is the point of `eval_casteljau`, and so are all control
points of both halves of `split`. -/
theorem C108_quadratic (hF : F.ShortSteps) (q : QuadraticBezier (PointN (Fl F) n))
    (lo hi : Fin n → ℝ) (hsize : ∀ i, hi i - lo i ≤ F.max)
    (h : ∀ p ∈ q.controlPoints, InsideBox lo hi p) {t : Fl F} (ht : UnitParam t) :
    InsideBox lo hi (q.evalCasteljau t) ∧
    (∀ p ∈ (q.split t).1.controlPoints, InsideBox lo hi p) ∧
    ∀ p ∈ (q.split t).2.controlPoints, InsideBox lo hi p := by
  simp only [QuadraticBezier.controlPoints, List.mem_cons, List.not_mem_nil, or_false,
    forall_eq_or_imp, forall_eq] at h ⊢
  obtain ⟨h1, h2, h3⟩ := h
  have l1 := h1.lerp hF hsize h2 ht
  have l2 := h2.lerp hF hsize h3 ht
  have l3 := l1.lerp hF hsize l2 ht
  exact ⟨l3, ⟨h1, l1, l3⟩, l3, l2, h3⟩

/-- **C108** (cubic curves). -/
theorem C108_cubic (hF : F.ShortSteps) (c : CubicBezier (PointN (Fl F) n))
    (lo hi : Fin n → ℝ) (hsize : ∀ i, hi i - lo i ≤ F.max)
    (h : ∀ p ∈ c.controlPoints, InsideBox lo hi p) {t : Fl F} (ht : UnitParam t) :
    InsideBox lo hi (c.evalCasteljau t) ∧
    (∀ p ∈ (c.split t).1.controlPoints, InsideBox lo hi p) ∧
    ∀ p ∈ (c.split t).2.controlPoints, InsideBox lo hi p := by
  simp only [CubicBezier.controlPoints, List.mem_cons, List.not_mem_nil, or_false,
    forall_eq_or_imp, forall_eq] at h ⊢
  obtain ⟨h1, h2, h3, h4⟩ := h
  have l1 := h1.lerp hF hsize h2 ht
  have l2 := h2.lerp hF hsize h3 ht
  have l3 := h3.lerp hF hsize h4 ht
  have l4 := l1.lerp hF hsize l2 ht
  have l5 := l2.lerp hF hsize l3 ht
  have l6 := l4.lerp hF hsize l5 ht
  exact ⟨l6, ⟨h1, l1, l4, l6⟩, l6, l5, l3, h4⟩

/-- **C108** (repeated subdivision): however often a quadratic curve is subdivided, no control
point of a piece ever leaves the box. -/
theorem C108_quadratic_descend (hF : F.ShortSteps) (lo hi : Fin n → ℝ)
    (hsize : ∀ i, hi i - lo i ≤ F.max) (path : List (Fl F × Bool))
    (hpath : ∀ x ∈ path, UnitParam x.1) (q : QuadraticBezier (PointN (Fl F) n))
    (h : ∀ p ∈ q.controlPoints, InsideBox lo hi p) :
    ∀ p ∈ (q.descend path).controlPoints, InsideBox lo hi p := by
  induction path generalizing q with
  | nil => exact h
  | cons x path ih =>
    obtain ⟨t, right⟩ := x
    obtain ⟨_, h1, h2⟩ := C108_quadratic hF q lo hi hsize h (hpath _ List.mem_cons_self)
    refine ih (fun y hy => hpath y (List.mem_cons_of_mem _ hy)) _ ?_
    cases right
    · exact h1
    · exact h2

/-- **C108** (repeated subdivision of cubic curves). -/
theorem C108_cubic_descend (hF : F.ShortSteps) (lo hi : Fin n → ℝ)
    (hsize : ∀ i, hi i - lo i ≤ F.max) (path : List (Fl F × Bool))
    (hpath : ∀ x ∈ path, UnitParam x.1) (c : CubicBezier (PointN (Fl F) n))
    (h : ∀ p ∈ c.controlPoints, InsideBox lo hi p) :
    ∀ p ∈ (c.descend path).controlPoints, InsideBox lo hi p := by
  induction path generalizing c with
  | nil => exact h
  | cons x path ih =>
    obtain ⟨t, right⟩ := x
    obtain ⟨_, h1, h2⟩ := C108_cubic hF c lo hi hsize h (hpath _ List.mem_cons_self)
    refine ih (fun y hy => hpath y (List.mem_cons_of_mem _ hy)) _ ?_
    cases right
    · exact h1
    · exact h2

/-- The hypotheses are met: in binary64, the curve with control coordinates 3, -7, 5, 1 in the
box [-7, 5] at t = 1/2. -/
example (cosI acosI : ℝ → ℝ) (powI : ℝ → ℝ → ℝ) :
    let F := binary64 cosI acosI powI
    let pt : ℤ → PointN (Fl F) 1 := fun k => ⟨fun _ => lit (k : ℚ)⟩
    let c : CubicBezier (PointN (Fl F) 1) := ⟨pt 3, pt (-7), pt 5, pt 1⟩
    (∀ p ∈ c.controlPoints, InsideBox (fun _ => -7) (fun _ => 5) p) ∧ (5 : ℝ) - (-7) ≤ F.max ∧
      ∃ t : Fl F, t.toReal = 1 / 2 ∧ UnitParam t := by
  intro F pt c
  have key : ∀ k : ℤ, |k| ≤ 7 → k ≤ 5 →
      InsideBox (F := F) (fun _ => -7) (fun _ => 5) (pt k) := by
    intro k hk h5 i
    have h7 : |(k : ℝ)| ≤ 7 := by exact_mod_cast hk
    have h5' : (k : ℝ) ≤ 5 := by exact_mod_cast h5
    show Between _ _ (lit (k : ℚ) : Fl F)
    rw [lit_int k (by omega)]
    exact ⟨trivial, (abs_le.1 h7).1, h5'⟩
  refine ⟨?_, ?_, ?_⟩
  · intro p hp
    simp only [CubicBezier.controlPoints, List.mem_cons, List.not_mem_nil, or_false, c] at hp
    rcases hp with rfl | rfl | rfl | rfl <;> exact key _ (by norm_num) (by norm_num)
  · linarith [F.max_ge]
  · have ht := dyadic_ok cosI acosI powI 1 (-1) (by norm_num) (by norm_num) (x := 1 / 2)
      (by norm_num) (by norm_num [abs_le])
    refine ⟨fin (1 / 2) ht, rfl, ?_, ?_⟩
    · rw [lit_zero]
      exact le_fin.2 (by norm_num)
    · rw [lit_one]
      exact lt_fin.2 (by norm_num)

/-! ### What is not true -/

/-- **C108** does not hold at t = 1: from 1 to 2⁻⁶⁰ `LineSegment::eval(1)` returns 0, which is not
between the two; likewise for `eval_casteljau`. -/
theorem C108_end_false (cosI acosI : ℝ → ℝ) (powI : ℝ → ℝ → ℝ) :
    let F := binary64 cosI acosI powI
    ∃ s e : PointN (Fl F) 1, InsideBox (fun _ => 2 ^ (-60 : ℤ)) (fun _ => 1) s
      ∧ InsideBox (fun _ => 2 ^ (-60 : ℤ)) (fun _ => 1) e
      ∧ ¬ InsideBox (fun _ => 2 ^ (-60 : ℤ)) (fun _ => 1)
        ((⟨s, e⟩ : LineSegment (PointN (Fl F) 1)).eval (lit 1 : Fl F))
      ∧ ¬ InsideBox (fun _ => 2 ^ (-60 : ℤ)) (fun _ => 1)
        ((⟨s, s, e⟩ : QuadraticBezier (PointN (Fl F) 1)).evalCasteljau (lit 1 : Fl F))
      ∧ ¬ InsideBox (fun _ => 2 ^ (-60 : ℤ)) (fun _ => 1)
        ((⟨s, s, s, e⟩ : CubicBezier (PointN (Fl F) 1)).evalCasteljau (lit 1 : Fl F)) := by
  intro F
  obtain ⟨h1, h2, h3⟩ := C61_false cosI acosI powI
  have out : ¬ InsideBox (F := F) (n := 1) (fun _ => 2 ^ (-60 : ℤ)) (fun _ => 1)
      ⟨fun _ => lit 0⟩ := by
    intro h
    obtain ⟨_, h, _⟩ := h 0
    change (2 : ℝ) ^ (-60 : ℤ) ≤ (lit 0 : Fl F).toReal at h
    rw [lit_zero, toReal_fin] at h
    have : (0 : ℝ) < 2 ^ (-60 : ℤ) := by positivity
    linarith
  refine ⟨⟨fun _ => lit 1⟩, ⟨fun _ => fin _ (tiny_ok cosI acosI powI)⟩, ?_, ?_, ?_, ?_, ?_⟩
  · intro i
    show Between _ _ (lit 1 : Fl F)
    rw [lit_one]
    refine ⟨trivial, ?_, ?_⟩ <;> norm_num
  · intro i
    refine ⟨trivial, ?_, ?_⟩ <;> rw [toReal_fin]
    norm_num
  · rw [h1]; exact out
  · rw [h2]; exact out
  · rw [h3]; exact out

/-- **C108** does not hold for the Bernstein forms: with all control points in one point,
`QuadraticBezier::eval` returns another point, and so does `Bezier::eval`. -/
theorem C108_eval_false (cosI acosI : ℝ → ℝ) (powI : ℝ → ℝ → ℝ) :
    let F := binary64 cosI acosI powI
    ∃ (x : ℝ) (p : PointN (Fl F) 1), InsideBox (fun _ => x) (fun _ => x) p
      ∧ (∃ t, ∀ r, (⟨fun _ => p⟩ : Bezier (PointN (Fl F) 1) 2).eval t = some r →
        ¬ InsideBox (fun _ => x) (fun _ => x) r)
      ∧ ∃ t, ¬ InsideBox (fun _ => x) (fun _ => x)
        ((⟨p, p, p⟩ : QuadraticBezier (PointN (Fl F) 1)).eval t) := by
  intro F
  obtain ⟨x, y, hx, hy, hlt, ⟨t1, h1⟩, t2, h2⟩ := C97_constant_false cosI acosI powI
  have out : ¬ InsideBox (F := F) (n := 1) (fun _ => x) (fun _ => x) ⟨fun _ => fin y hy⟩ := by
    intro h
    obtain ⟨_, h, _⟩ := h 0
    rw [toReal_fin] at h
    linarith
  refine ⟨x, ⟨fun _ => fin x hx⟩, fun i => ⟨trivial, le_rfl, le_rfl⟩, ⟨t1, ?_⟩, t2, ?_⟩
  · intro r hr
    rw [h1, Option.some.injEq] at hr
    rw [← hr]
    exact out
  · rw [h2]
    exact out

end Stroke
