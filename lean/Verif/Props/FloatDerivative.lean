import Verif.Props.FloatRoots
import Verif.Props.FloatSplit

/-!
# Derivatives in floating point (C92)

The rounding errors of `derivative()` followed by `eval`, and of `QuadraticBezier::dd`, against
the derivative (`deriv`, in the sense of calculus) of the exact curve with the given control
points.
-/

set_option linter.unusedSectionVars false

namespace Stroke

open Fl

variable {F : FloatFormat} {n : ℕ}

/-! ### One control point of a derivative -/

/-- `(b - a) * k` for an integer `1 ≤ k ≤ 1024`. -/
theorem scaled_difference {a b : Fl F} {M : ℝ} {k : ℕ} (hk1 : 1 ≤ k) (hk : k ≤ 1024)
    (hu : F.u ≤ 1 / 1024) (ha : a.IsFinite) (hb : b.IsFinite) (hM : |a.toReal| ≤ M)
    (hM' : |b.toReal| ≤ M) (hmax : k * (5 / 2 * M + 3 * F.eta) ≤ F.max)
    (hkk : ((k : ℤ) : ℝ) ∈ F.grid ∧ |((k : ℤ) : ℝ)| ≤ F.max) :
    ((b - a) * (fin ((k : ℤ) : ℝ) hkk)).IsFinite ∧
    |((b - a) * (fin ((k : ℤ) : ℝ) hkk)).toReal - k * (b.toReal - a.toReal)|
      ≤ k * (5 * F.u * M + 3 * F.eta) ∧
    |((b - a) * (fin ((k : ℤ) : ℝ) hkk)).toReal| ≤ k * (9 / 4 * M + 3 * F.eta) := by
  obtain ⟨x, hx, rfl⟩ := isFinite_iff.1 ha
  obtain ⟨y, hy, rfl⟩ := isFinite_iff.1 hb
  simp only [toReal_fin] at *
  have u0 := F.u_nonneg
  have e0 := F.eta_nonneg
  have M0 : 0 ≤ M := (abs_nonneg _).trans hM
  have uM0 : 0 ≤ F.u * M := mul_nonneg u0 M0
  have uM : F.u * M ≤ 1 / 1024 * M := mul_le_mul_of_nonneg_right hu M0
  have uuM : F.u * (F.u * M) ≤ 1 / 1024 * (F.u * M) := mul_le_mul_of_nonneg_right hu uM0
  have ue : F.u * F.eta ≤ 1 / 1024 * F.eta := mul_le_mul_of_nonneg_right hu e0
  have k1 : (1 : ℝ) ≤ k := by exact_mod_cast hk1
  have k0 : (0 : ℝ) ≤ k := by linarith
  have lek : ∀ z : ℝ, 0 ≤ z → z ≤ k * z := fun z hz => by
    have := mul_le_mul_of_nonneg_right k1 hz
    linarith
  have m1 : 5 / 2 * M + 3 * F.eta ≤ k * (5 / 2 * M + 3 * F.eta) := lek _ (by positivity)
  have hd : |y - x| ≤ 2 * M := by
    have := abs_sub y x
    linarith
  obtain ⟨d, hd', ed, dd, nd⟩ := round_step (F := F) (x := y - x) (y := y - x) (B := 2 * M) (ex := 0)
    hu hd (by simp) (by linarith)
  rw [fin_sub, ed, fin_mul]
  have e1 := lek F.eta e0
  obtain ⟨z, hz, ez, dz, nz⟩ := round_step (F := F) (x := d * ((k : ℤ) : ℝ)) (y := k * (y - x))
    (B := k * (2 * M + 2 * (F.u * M) + F.eta)) (ex := k * (2 * (F.u * M) + F.eta)) hu
    (by
      rw [abs_mul, mul_comm]
      have : |((k : ℤ) : ℝ)| = k := by push_cast; exact abs_of_nonneg k0
      rw [this]
      exact mul_le_mul_of_nonneg_left (by linarith) k0)
    (by
      rw [show d * ((k : ℤ) : ℝ) - k * (y - x) = k * (d - (y - x)) by push_cast; ring, abs_mul,
        abs_of_nonneg k0]
      exact mul_le_mul_of_nonneg_left (by linarith) k0)
    (by
      have h1 : k * (2 * M + 2 * (F.u * M) + F.eta + F.u * (2 * M + 2 * (F.u * M) + F.eta) + F.eta)
          ≤ k * (5 / 2 * M + 3 * F.eta) := by
        apply mul_le_mul_of_nonneg_left _ k0
        linarith
      have h2 : F.u * (k * (2 * M + 2 * (F.u * M) + F.eta))
        = k * (F.u * (2 * M + 2 * (F.u * M) + F.eta)) := by ring
      rw [h2]
      linarith)
  rw [ez, toReal_fin]
  refine ⟨trivial, dz.trans ?_, nz.trans ?_⟩
  · have h1 : k * (F.u * (2 * M + 2 * (F.u * M) + F.eta) + F.eta + (2 * (F.u * M) + F.eta))
        ≤ k * (5 * F.u * M + 3 * F.eta) := by
      apply mul_le_mul_of_nonneg_left _ k0
      linarith
    have h2 : F.u * (k * (2 * M + 2 * (F.u * M) + F.eta))
      = k * (F.u * (2 * M + 2 * (F.u * M) + F.eta)) := by ring
    rw [h2]
    linarith
  · have h1 : k * (2 * M + 2 * (F.u * M) + F.eta + F.u * (2 * M + 2 * (F.u * M) + F.eta) + F.eta)
        ≤ k * (9 / 4 * M + 3 * F.eta) := by
      apply mul_le_mul_of_nonneg_left _ k0
      linarith
    have h2 : F.u * (k * (2 * M + 2 * (F.u * M) + F.eta))
      = k * (F.u * (2 * M + 2 * (F.u * M) + F.eta)) := by ring
    rw [h2]
    linarith

theorem lit_nat {k : ℕ} (hk : k ≤ 1024) :
    ∃ hkk : ((k : ℤ) : ℝ) ∈ F.grid ∧ |((k : ℤ) : ℝ)| ≤ F.max,
      (lit (k : ℚ) : Fl F) = fin ((k : ℤ) : ℝ) hkk ∧
      (Scalar.ofUsize k : Fl F) = fin ((k : ℤ) : ℝ) hkk := by
  have h : |(k : ℤ)| ≤ 1024 := by rw [Nat.abs_cast]; exact_mod_cast hk
  refine ⟨F.int_ok k h, ?_, ?_⟩
  · have := lit_int (F := F) k h
    exact_mod_cast this
  · show F.round ((k : ℕ) : ℝ) = _
    have := F.round_of_mem (F.int_ok k h)
    rw [← this]
    push_cast
    rfl

/-! ### The derivative of the exact curve -/

theorem deriv_bern2 (a b c t : ℝ) :
    deriv (fun s => bern2 s a b c) t = (1 - t) * (2 * (b - a)) + t * (2 * (c - b)) := by
  have key : HasDerivAt (fun u : ℝ => a + u * (2 * (b - a)) + u ^ 2 * (a - 2 * b + c))
      (0 + 1 * (2 * (b - a)) + ((2 : ℕ) : ℝ) * t ^ (2 - 1) * (a - 2 * b + c)) t :=
    ((hasDerivAt_const t a).add ((hasDerivAt_id t).mul_const _)).add
      ((hasDerivAt_pow 2 t).mul_const _)
  have e : (fun s => bern2 s a b c)
      = fun u : ℝ => a + u * (2 * (b - a)) + u ^ 2 * (a - 2 * b + c) := by
    funext u; unfold bern2; ring
  rw [e, key.deriv]
  push_cast
  ring

theorem deriv_bern3 (a b c d t : ℝ) :
    deriv (fun s => bern3 s a b c d) t
      = bern2 t (3 * (b - a)) (3 * (c - b)) (3 * (d - c)) := by
  have key : HasDerivAt (fun u : ℝ => a + u * (3 * (b - a)) + u ^ 2 * (3 * (a - 2 * b + c))
        + u ^ 3 * (d - 3 * c + 3 * b - a))
      (0 + 1 * (3 * (b - a)) + ((2 : ℕ) : ℝ) * t ^ (2 - 1) * (3 * (a - 2 * b + c))
        + ((3 : ℕ) : ℝ) * t ^ (3 - 1) * (d - 3 * c + 3 * b - a)) t :=
    (((hasDerivAt_const t a).add ((hasDerivAt_id t).mul_const _)).add
      ((hasDerivAt_pow 2 t).mul_const _)).add ((hasDerivAt_pow 3 t).mul_const _)
  have e : (fun s => bern3 s a b c d) = fun u : ℝ => a + u * (3 * (b - a))
      + u ^ 2 * (3 * (a - 2 * b + c)) + u ^ 3 * (d - 3 * c + 3 * b - a) := by
    funext u; unfold bern3; ring
  rw [e, key.deriv]
  unfold bern2
  push_cast
  ring

/-! ### The claims -/

/-- **C92**, `LineSegment::derivative`. -/
theorem C92_line (l : LineSegment (PointN (Fl F) n)) {M : ℝ} (hu : F.u ≤ 1 / 1024)
    (hs : BoundedBy M l.start) (hd : BoundedBy M l.end_) (hmax : 5 / 2 * M + F.eta ≤ F.max)
    (i : Fin n) :
    (l.derivative.coords i).IsFinite ∧
    |(l.derivative.coords i).toReal - ((l.end_.coords i).toReal - (l.start.coords i).toReal)|
      ≤ 2 * F.u * M + F.eta := by
  obtain ⟨h1, h2⟩ := hs i
  obtain ⟨h3, h4⟩ := hd i
  show ((l.end_ - l.start).coords i).IsFinite ∧ |((l.end_ - l.start).coords i).toReal - _| ≤ _
  rw [coords_sub]
  obtain ⟨x, hx, ex⟩ := isFinite_iff.1 h1
  obtain ⟨y, hy, ey⟩ := isFinite_iff.1 h3
  rw [ex] at h2 ⊢
  rw [ey] at h4 ⊢
  rw [toReal_fin] at h2 h4
  rw [toReal_fin, toReal_fin]
  have M0 : 0 ≤ M := (abs_nonneg _).trans h2
  have uM : F.u * M ≤ 1 / 1024 * M := mul_le_mul_of_nonneg_right hu M0
  obtain ⟨d, hd', ed, dd, -⟩ := round_step (F := F) (x := y - x) (y := y - x) (B := 2 * M) (ex := 0)
    hu (by have := abs_sub y x; linarith) (by simp) (by linarith)
  rw [fin_sub, ed]
  exact ⟨trivial, dd.trans (by linarith)⟩

/-- **C92**, `QuadraticBezier::derivative` and `eval` of the result: finite, and within
`38 u M + 11 η` of the derivative of the exact curve, in each coordinate. -/
theorem C92_quadratic (q : QuadraticBezier (PointN (Fl F) n)) {t M : ℝ}
    (ht : t ∈ F.grid ∧ |t| ≤ F.max) (t0 : 0 ≤ t) (t1 : t ≤ 1)
    (hu : F.u ≤ 1 / 1024) (he : F.eta ≤ 1 / 1024)
    (hs : BoundedBy M q.start) (hc : BoundedBy M q.ctrl) (hd : BoundedBy M q.end_)
    (hmax : 12 * M + 2 ≤ F.max) (i : Fin n) :
    ((q.derivative.eval (fin t ht)).coords i).IsFinite ∧
    |((q.derivative.eval (fin t ht)).coords i).toReal - deriv (q.exact i) t|
      ≤ 38 * F.u * M + 11 * F.eta := by
  have u0 := F.u_nonneg
  have e0 := F.eta_nonneg
  have M0 : 0 ≤ M := (abs_nonneg _).trans (hs i).2
  have uM : F.u * M ≤ 1 / 1024 * M := mul_le_mul_of_nonneg_right hu M0
  have ue : F.u * F.eta ≤ 1 / 1024 * F.eta := mul_le_mul_of_nonneg_right hu e0
  have uM0 : 0 ≤ F.u * M := mul_nonneg u0 M0
  obtain ⟨hkk, e2, -⟩ := lit_nat (F := F) (k := 2) (by norm_num)
  have e2' : (lit 2 : Fl F) = fin (((2 : ℕ) : ℤ) : ℝ) hkk := by exact_mod_cast e2
  have A : ∀ j, _ := fun j => scaled_difference (k := 2) (by norm_num) (by norm_num) hu (hs j).1
    (hc j).1 (hs j).2 (hc j).2 (by push_cast; linarith) hkk
  have B : ∀ j, _ := fun j => scaled_difference (k := 2) (by norm_num) (by norm_num) hu (hc j).1
    (hd j).1 (hc j).2 (hd j).2 (by push_cast; linarith) hkk
  have eA : ∀ j, q.derivative.start.coords j
      = (q.ctrl.coords j - q.start.coords j) * fin (((2 : ℕ) : ℤ) : ℝ) hkk := by
    intro j
    show ((q.ctrl - q.start) * (lit 2 : Fl F)).coords j = _
    rw [coords_mul, coords_sub, e2']
  have eB : ∀ j, q.derivative.end_.coords j
      = (q.end_.coords j - q.ctrl.coords j) * fin (((2 : ℕ) : ℤ) : ℝ) hkk := by
    intro j
    show ((q.end_ - q.ctrl) * (lit 2 : Fl F)).coords j = _
    rw [coords_mul, coords_sub, e2']
  simp only [← eA] at A
  simp only [← eB] at B
  push_cast at A B
  obtain ⟨f, d⟩ := C67_line_eval q.derivative (M := 2 * (9 / 4 * M + 3 * F.eta)) ht t0 t1 hu he
    (fun j => ⟨(A j).1, (A j).2.2⟩) (fun j => ⟨(B j).1, (B j).2.2⟩) (by linarith) i
  refine ⟨f, ?_⟩
  have hder : deriv (q.exact i) t = _ := deriv_bern2 (q.start.coords i).toReal
    (q.ctrl.coords i).toReal (q.end_.coords i).toReal t
  rw [hder]
  obtain ⟨-, a2, -⟩ := A i
  obtain ⟨-, b2, -⟩ := B i
  generalize ((q.derivative.eval (fin t ht)).coords i).toReal = z at d ⊢
  generalize (q.derivative.start.coords i).toReal = x at d a2
  generalize (q.derivative.end_.coords i).toReal = y at d b2
  generalize (q.start.coords i).toReal = a at a2 b2 ⊢
  generalize (q.ctrl.coords i).toReal = b at a2 b2 ⊢
  generalize (q.end_.coords i).toReal = c at a2 b2 ⊢
  rw [abs_le] at *
  have o0 : 0 ≤ 1 - t := by linarith
  have p1 := mul_le_mul_of_nonneg_left a2.1 o0
  have p2 := mul_le_mul_of_nonneg_left a2.2 o0
  have p3 := mul_le_mul_of_nonneg_left b2.1 t0
  have p4 := mul_le_mul_of_nonneg_left b2.2 t0
  constructor <;> linarith

/-- **C92**, `CubicBezier::derivative` and `eval` of the result. -/
theorem C92_cubic (c : CubicBezier (PointN (Fl F) n)) {t M : ℝ}
    (ht : t ∈ F.grid ∧ |t| ≤ F.max) (t0 : 0 ≤ t) (t1 : t ≤ 1)
    (hu : F.u ≤ 1 / 1024) (he : F.eta ≤ 1 / 1024)
    (hs : BoundedBy M c.start) (hc : BoundedBy M c.ctrl1) (hc' : BoundedBy M c.ctrl2)
    (hd : BoundedBy M c.end_) (hmax : 21 * M + 2 ≤ F.max) (i : Fin n) :
    ((c.derivative.eval (fin t ht)).coords i).IsFinite ∧
    |((c.derivative.eval (fin t ht)).coords i).toReal - deriv (c.exact i) t|
      ≤ ((1 + F.u) ^ 6 - 1) * (27 / 4 * M + 9 * F.eta) + 15 * F.u * M + (88 * M + 22) * F.eta := by
  have u0 := F.u_nonneg
  have e0 := F.eta_nonneg
  have M0 : 0 ≤ M := (abs_nonneg _).trans (hs i).2
  have eM0 : 0 ≤ M * F.eta := mul_nonneg M0 e0
  have ee : F.eta * F.eta ≤ 1 / 1024 * F.eta := mul_le_mul_of_nonneg_right he e0
  obtain ⟨hkk, e3, -⟩ := lit_nat (F := F) (k := 3) (by norm_num)
  have e3' : (lit 3 : Fl F) = fin (((3 : ℕ) : ℤ) : ℝ) hkk := by exact_mod_cast e3
  have A : ∀ j, _ := fun j => scaled_difference (k := 3) (by norm_num) (by norm_num) hu (hs j).1
    (hc j).1 (hs j).2 (hc j).2 (by push_cast; linarith) hkk
  have B : ∀ j, _ := fun j => scaled_difference (k := 3) (by norm_num) (by norm_num) hu (hc j).1
    (hc' j).1 (hc j).2 (hc' j).2 (by push_cast; linarith) hkk
  have D : ∀ j, _ := fun j => scaled_difference (k := 3) (by norm_num) (by norm_num) hu (hc' j).1
    (hd j).1 (hc' j).2 (hd j).2 (by push_cast; linarith) hkk
  have eA : ∀ j, c.derivative.start.coords j
      = (c.ctrl1.coords j - c.start.coords j) * fin (((3 : ℕ) : ℤ) : ℝ) hkk := by
    intro j
    show ((c.ctrl1 - c.start) * (lit 3 : Fl F)).coords j = _
    rw [coords_mul, coords_sub, e3']
  have eB : ∀ j, c.derivative.ctrl.coords j
      = (c.ctrl2.coords j - c.ctrl1.coords j) * fin (((3 : ℕ) : ℤ) : ℝ) hkk := by
    intro j
    show ((c.ctrl2 - c.ctrl1) * (lit 3 : Fl F)).coords j = _
    rw [coords_mul, coords_sub, e3']
  have eD : ∀ j, c.derivative.end_.coords j
      = (c.end_.coords j - c.ctrl2.coords j) * fin (((3 : ℕ) : ℤ) : ℝ) hkk := by
    intro j
    show ((c.end_ - c.ctrl2) * (lit 3 : Fl F)).coords j = _
    rw [coords_mul, coords_sub, e3']
  simp only [← eA] at A
  simp only [← eB] at B
  simp only [← eD] at D
  push_cast at A B D
  obtain ⟨f, d⟩ := C67_quadratic_eval c.derivative (M := 3 * (9 / 4 * M + 3 * F.eta)) ht t0 t1 hu he
    (fun j => ⟨(A j).1, (A j).2.2⟩) (fun j => ⟨(B j).1, (B j).2.2⟩) (fun j => ⟨(D j).1, (D j).2.2⟩)
    (by linarith) i
  refine ⟨f, ?_⟩
  have hder : deriv (c.exact i) t = _ := deriv_bern3 (c.start.coords i).toReal
    (c.ctrl1.coords i).toReal (c.ctrl2.coords i).toReal (c.end_.coords i).toReal t
  rw [hder]
  have p := bern2_perturb t0 t1 (A i).2.1 (B i).2.1 (D i).2.1
  refine (abs_sub_le _ _ _).trans ((add_le_add d p).trans ?_)
  linarith

theorem extend_coord_eq {N : ℕ} (p : Arr (PointN (Fl F) n) N) (i : Fin n) (k : Fin N) :
    ((extend p k.val).coords i).toReal = ((p k).coords i).toReal := by
  rw [extend_lt _ k.isLt]

/-- **C92**, `Bezier::derivative` and `eval` of the result, for every number of control points up
to 1025: neither panics, the result is finite, and it differs from the derivative of the exact
curve by at most the error of the control points plus the error of `eval` (C62). -/
theorem C92_bezier {N : ℕ} (hN : 2 ≤ N) (hN' : N ≤ 1025) (b : Bezier (PointN (Fl F) n) N) {t M : ℝ}
    (ht : t ∈ F.grid ∧ |t| ≤ F.max) (t0 : 0 ≤ t) (t1 : t ≤ 1) (hu : F.u ≤ 1 / 1024)
    (hb : ∀ k, BoundedBy M (b.control_points k)) (hM0 : 0 ≤ M)
    {M' : ℝ} (hM' : M' = (N - 1 : ℕ) * (5 / 2 * M + 3 * F.eta))
    (hmax : ((1 + F.u) ^ 2 * (1 + F.u + F.eta)) ^ (N - 2)
      * (M' + (N - 2 : ℕ) * (3 * (1 + F.u) * F.eta)) ≤ F.max) :
    ∃ d q, b.derivative = some d ∧ d.eval (fin t ht) = some q ∧ ∀ i, (q.coords i).IsFinite ∧
      |(q.coords i).toReal - deriv (b.exact i) t|
        ≤ (N - 1 : ℕ) * (5 * F.u * M + 3 * F.eta)
          + (((1 + F.u) ^ 2 * (1 + F.u + F.eta)) ^ (N - 2)
              * (M' + (N - 2 : ℕ) * (3 * (1 + F.u) * F.eta)) - M') := by
  have u0 := F.u_nonneg
  have e0 := F.eta_nonneg
  have M0' : 0 ≤ M' := by rw [hM']; positivity
  obtain ⟨hkk, -, eN⟩ := lit_nat (F := F) (k := N - 1) (by omega)
  have g1 : 1 ≤ ((1 + F.u) ^ 2 * (1 + F.u + F.eta)) ^ (N - 2) := by
    apply one_le_pow₀
    have h1 : 1 ≤ (1 + F.u) ^ 2 := one_le_pow₀ (by linarith)
    have h2 := mul_le_mul h1 (show (1 : ℝ) ≤ 1 + F.u + F.eta by linarith) (by norm_num) (by positivity)
    linarith
  have hmax1 : M' ≤ F.max := by
    refine le_trans ?_ hmax
    have h1 : 0 ≤ ((N - 2 : ℕ) : ℝ) * (3 * (1 + F.u) * F.eta) := by positivity
    have h2 := mul_le_mul g1 (show M' ≤ M' + ((N - 2 : ℕ) : ℝ) * (3 * (1 + F.u) * F.eta) by linarith)
      M0' (by positivity)
    linarith
  have A : ∀ (k : Fin (N - 1)) (j : Fin n), _ := fun k j =>
    scaled_difference (k := N - 1) (by omega) (by omega) hu
      (hb ⟨k.val, by omega⟩ j).1 (hb ⟨k.val + 1, by omega⟩ j).1 (hb ⟨k.val, by omega⟩ j).2
      (hb ⟨k.val + 1, by omega⟩ j).2 (hM' ▸ hmax1) hkk
  let dc : Fin (N - 1) → PointN (Fl F) n := fun k : Fin (N - 1) =>
      (b.control_points ⟨k.val + 1, by omega⟩ - b.control_points ⟨k.val, by omega⟩)
        * (Scalar.ofUsize (N - 1) : Fl F)
  have edc : ∀ k j, (dc k).coords j = ((b.control_points ⟨k.val + 1, by omega⟩).coords j
      - (b.control_points ⟨k.val, by omega⟩).coords j) * fin (((N - 1 : ℕ) : ℤ) : ℝ) hkk := by
    intro k j
    show ((b.control_points ⟨k.val + 1, _⟩ - b.control_points ⟨k.val, _⟩)
        * (Scalar.ofUsize (N - 1) : Fl F)).coords j = _
    rw [coords_mul, coords_sub, eN]
  simp only [← edc] at A
  have bnd : ∀ k j, |((dc k).coords j).toReal| ≤ M' := fun k j => by
    refine (A k j).2.2.trans ?_
    rw [hM']
    apply mul_le_mul_of_nonneg_left _ (Nat.cast_nonneg _)
    linarith
  obtain ⟨q, hq, hall⟩ := C62_bezier_error (N := N - 1) (by omega) ⟨dc⟩ ht t0 t1
    (fun k i => (A k i).1) bnd M0' (by rw [show N - 1 - 1 = N - 2 by omega]; exact hmax)
  refine ⟨⟨dc⟩, q, bezier_derivative_eq b hN, hq, fun i => ⟨(hall i).1, ?_⟩⟩
  have h2 := (hall i).2
  rw [show N - 1 - 1 = N - 2 by omega] at h2
  -- the derivative of the exact curve
  have ex : b.exact i = bsum (N - 2 + 1) (fun k => ((extend b.control_points k).coords i).toReal) := by
    funext s
    rw [exact_eq_bsum (x := fun k => ((extend b.control_points k).coords i).toReal) (by omega) b i s
      (extend_coord_eq b.control_points i), show N - 1 = N - 2 + 1 by omega]
  have hder := (hasDerivAt_bsum (N - 2) (fun k => ((extend b.control_points k).coords i).toReal) t).deriv
  rw [ex, hder]
  have e4 : (∑ k : Fin (N - 1), bernstein (N - 2) k t * ((dc k).coords i).toReal)
      = bsum (N - 2) (fun k => ((extend dc k).coords i).toReal) t := by
    unfold bsum
    rw [show N - 2 + 1 = N - 1 by omega, ← Fin.sum_univ_eq_sum_range
      (fun k => bernstein (N - 2) k t * ((extend dc k).coords i).toReal)]
    refine Finset.sum_congr rfl fun k _ => ?_
    rw [extend_lt _ k.isLt]
  have hh : |(q.coords i).toReal - bsum (N - 2) (fun k => ((extend dc k).coords i).toReal) t|
      ≤ ((1 + F.u) ^ 2 * (1 + F.u + F.eta)) ^ (N - 2)
              * (M' + (N - 2 : ℕ) * (3 * (1 + F.u) * F.eta)) - M' := by
    rw [← e4]; exact h2
  have e5 : ((N - 2 : ℕ) + 1 : ℝ) * bsum (N - 2) (fun k => ((extend b.control_points (k + 1)).coords i).toReal
      - ((extend b.control_points k).coords i).toReal) t
      = bsum (N - 2) (fun k => (((N - 1 : ℕ) : ℝ)
        * (((extend b.control_points (k + 1)).coords i).toReal
          - ((extend b.control_points k).coords i).toReal))) t := by
    have : ((N - 1 : ℕ) : ℝ) = ((N - 2 : ℕ) + 1 : ℝ) := by
      rw [show N - 1 = N - 2 + 1 by omega]; push_cast; ring
    rw [this]
    unfold bsum
    rw [Finset.mul_sum]
    exact Finset.sum_congr rfl fun k _ => by ring
  rw [e5]
  have p := bsum_perturb (m := N - 2) t0 t1 (x := fun k => ((extend dc k).coords i).toReal)
    (y := fun k => (((N - 1 : ℕ) : ℝ) * (((extend b.control_points (k + 1)).coords i).toReal
          - ((extend b.control_points k).coords i).toReal)))
    (e := (N - 1 : ℕ) * (5 * F.u * M + 3 * F.eta)) (by
      intro k hk
      have hk' : k < N - 1 := by omega
      have := (A ⟨k, hk'⟩ i).2.1
      show |((extend dc k).coords i).toReal - _ * (((extend b.control_points (k + 1)).coords i).toReal
          - ((extend b.control_points k).coords i).toReal)| ≤ _
      rw [extend_lt dc hk', extend_lt b.control_points (show k < N by omega),
        extend_lt b.control_points (show k + 1 < N by omega)]
      exact this)
  refine (abs_sub_le _ _ _).trans ((add_le_add hh p).trans (le_of_eq (by ring)))

/-- **C92**, `QuadraticBezier::dd`: no panic on an existing axis, a finite value, and within
`35 u M + (12 M + 7) η` of the derivative of that coordinate of the exact curve. -/
theorem C92_dd (q : QuadraticBezier (PointN (Fl F) n)) {t M : ℝ}
    (ht : t ∈ F.grid ∧ |t| ≤ F.max) (t0 : 0 ≤ t) (t1 : t ≤ 1)
    (hu : F.u ≤ 1 / 1024) (he : F.eta ≤ 1 / 1024)
    (hs : BoundedBy M q.start) (hc : BoundedBy M q.ctrl) (hd : BoundedBy M q.end_)
    (hmax : 7 * M + 1 ≤ F.max) (i : Fin n) :
    ∃ v, q.dd (fin t ht) i = some v ∧ v.IsFinite ∧
      |v.toReal - deriv (q.exact i) t| ≤ 35 * F.u * M + (12 * M + 7) * F.eta := by
  have mx := F.max_ge
  have u0 := F.u_nonneg
  have e0 := F.eta_nonneg
  obtain ⟨fs, bs⟩ := hs i
  obtain ⟨fc, bc⟩ := hc i
  obtain ⟨fd, bd⟩ := hd i
  have hder : deriv (q.exact i) t = _ := deriv_bern2 (q.start.coords i).toReal
    (q.ctrl.coords i).toReal (q.end_.coords i).toReal t
  rw [hder]
  obtain ⟨s, hs', es⟩ := isFinite_iff.1 fs
  obtain ⟨c, hc', ec⟩ := isFinite_iff.1 fc
  obtain ⟨d, hd', ed⟩ := isFinite_iff.1 fd
  have hdd : q.dd (fin t ht) i = some (q.start.coords i * (fin t ht * lit 2 - lit 2)
      + q.ctrl.coords i * (lit 2 - lit 4 * fin t ht) + q.end_.coords i * (lit 2 * fin t ht)) := by
    unfold QuadraticBezier.dd
    rw [axis_some_pn _ i.isLt, axis_some_pn _ i.isLt, axis_some_pn _ i.isLt]
    rfl
  rw [hdd]
  refine ⟨_, rfl, ?_⟩
  obtain ⟨h2, e2, -⟩ := lit_nat (F := F) (k := 2) (by norm_num)
  obtain ⟨h4, e4, -⟩ := lit_nat (F := F) (k := 4) (by norm_num)
  have e2' : (lit 2 : Fl F) = fin (((2 : ℕ) : ℤ) : ℝ) h2 := by exact_mod_cast e2
  have e4' : (lit 4 : Fl F) = fin (((4 : ℕ) : ℤ) : ℝ) h4 := by exact_mod_cast e4
  rw [es] at bs ⊢
  rw [ec] at bc ⊢
  rw [ed] at bd ⊢
  rw [e2', e4']
  rw [toReal_fin] at bs bc bd
  rw [toReal_fin, toReal_fin, toReal_fin]
  have M0 : 0 ≤ M := (abs_nonneg _).trans bs
  have uM0 : 0 ≤ F.u * M := mul_nonneg u0 M0
  have eM0 : 0 ≤ F.eta * M := mul_nonneg e0 M0
  have uM : F.u * M ≤ 1 / 1024 * M := mul_le_mul_of_nonneg_right hu M0
  have eM : F.eta * M ≤ 1 / 1024 * M := mul_le_mul_of_nonneg_right he M0
  have uuM : F.u * (F.u * M) ≤ 1 / 1024 * (F.u * M) := mul_le_mul_of_nonneg_right hu uM0
  have ueM : F.u * (F.eta * M) ≤ 1 / 1024 * (F.eta * M) := mul_le_mul_of_nonneg_right hu eM0
  have ue : F.u * F.eta ≤ 1 / 1024 * F.eta := mul_le_mul_of_nonneg_right hu e0
  have uu : F.u * F.u ≤ 1 / 1024 * F.u := mul_le_mul_of_nonneg_right hu u0
  -- the three coefficients
  obtain ⟨t2, ht2, et2, dt2, nt2⟩ := round_step (F := F) (x := t * (((2 : ℕ) : ℤ) : ℝ)) (y := 2 * t)
    (B := 2) (ex := 0) hu (by push_cast; rw [abs_le]; constructor <;> linarith)
    (by push_cast; rw [abs_le]; constructor <;> linarith) (by linarith)
  obtain ⟨c2, hc2, ec2, dc2, nc2⟩ := round_step (F := F) (x := (((2 : ℕ) : ℤ) : ℝ) * t) (y := 2 * t)
    (B := 2) (ex := 0) hu (by push_cast; rw [abs_le]; constructor <;> linarith)
    (by push_cast; rw [abs_le]; constructor <;> linarith) (by linarith)
  obtain ⟨f4, hf4, ef4, df4, nf4⟩ := round_step (F := F) (x := (((4 : ℕ) : ℤ) : ℝ) * t) (y := 4 * t)
    (B := 4) (ex := 0) hu (by push_cast; rw [abs_le]; constructor <;> linarith)
    (by push_cast; rw [abs_le]; constructor <;> linarith) (by linarith)
  obtain ⟨c0, hc0, ec0, dc0, nc0⟩ := round_step (F := F) (x := t2 - (((2 : ℕ) : ℤ) : ℝ))
    (y := 2 * t - 2) (B := 2 + 2 * F.u + F.eta) (ex := 2 * F.u + F.eta) hu
    (by push_cast; rw [abs_le] at dt2 ⊢; constructor <;> linarith)
    (by push_cast; rw [abs_le] at dt2 ⊢; constructor <;> linarith) (by linarith)
  obtain ⟨c1, hc1, ec1, dc1, nc1⟩ := round_step (F := F) (x := (((2 : ℕ) : ℤ) : ℝ) - f4)
    (y := 2 - 4 * t) (B := 2 + 4 * F.u + F.eta) (ex := 4 * F.u + F.eta) hu
    (by push_cast; rw [abs_le] at df4 ⊢; constructor <;> linarith)
    (by push_cast; rw [abs_le] at df4 ⊢; constructor <;> linarith) (by linarith)
  -- one product
  have prod : ∀ (p k w K : ℝ), |p| ≤ M → |k - w| ≤ K → |w| ≤ 2 →
      |p * k| ≤ M * (2 + K) ∧ |p * k - p * w| ≤ M * K := by
    intro p k w K hp hk hw
    have hk' : |k| ≤ 2 + K := by
      have := abs_add_le (k - w) w
      rw [sub_add_cancel] at this
      linarith
    refine ⟨?_, ?_⟩
    · rw [abs_mul]
      exact mul_le_mul hp hk' (abs_nonneg _) M0
    · rw [← mul_sub, abs_mul]
      exact mul_le_mul hp hk (abs_nonneg _) M0
  have P0 := prod s c0 (2 * t - 2) (5 * F.u + 3 * F.eta) bs (by linarith)
    (by rw [abs_le]; constructor <;> linarith)
  have P1 := prod c c1 (2 - 4 * t) (7 * F.u + 3 * F.eta) bc (by linarith)
    (by rw [abs_le]; constructor <;> linarith)
  have P2 := prod d c2 (2 * t) (2 * F.u + F.eta) bd (by linarith)
    (by rw [abs_le]; constructor <;> linarith)
  obtain ⟨p0, hp0, ep0, dp0, -⟩ := round_step (F := F) (x := s * c0) (y := s * (2 * t - 2)) hu
    P0.1 P0.2 (by linarith)
  obtain ⟨p1, hp1, ep1, dp1, -⟩ := round_step (F := F) (x := c * c1) (y := c * (2 - 4 * t)) hu
    P1.1 P1.2 (by linarith)
  obtain ⟨p2, hp2, ep2, dp2, -⟩ := round_step (F := F) (x := d * c2) (y := d * (2 * t)) hu
    P2.1 P2.2 (by linarith)
  have Q0 : |s * (2 * t - 2)| ≤ 2 * M := by
    rw [abs_mul, mul_comm]
    exact mul_le_mul (by rw [abs_le]; constructor <;> linarith) bs (abs_nonneg _) (by norm_num)
  have Q1 : |c * (2 - 4 * t)| ≤ 2 * M := by
    rw [abs_mul, mul_comm]
    exact mul_le_mul (by rw [abs_le]; constructor <;> linarith) bc (abs_nonneg _) (by norm_num)
  have Q2 : |d * (2 * t)| ≤ 2 * M := by
    rw [abs_mul, mul_comm]
    exact mul_le_mul (by rw [abs_le]; constructor <;> linarith) bd (abs_nonneg _) (by norm_num)
  have D0 : |p0 - s * (2 * t - 2)| ≤ 8 * (F.u * M) + 4 * (F.eta * M) + F.eta := by linarith
  have D1 : |p1 - c * (2 - 4 * t)| ≤ 10 * (F.u * M) + 4 * (F.eta * M) + F.eta := by linarith
  have D2 : |p2 - d * (2 * t)| ≤ 5 * (F.u * M) + 2 * (F.eta * M) + F.eta := by linarith
  clear dp0 dp1 dp2 P0 P1 P2 prod
  obtain ⟨s1, hs1, es1, ds1, -⟩ := round_step (F := F) (x := p0 + p1)
    (y := s * (2 * t - 2) + c * (2 - 4 * t))
    (B := 4 * M + 18 * (F.u * M) + 8 * (F.eta * M) + 2 * F.eta)
    (ex := 18 * (F.u * M) + 8 * (F.eta * M) + 2 * F.eta) hu
    (by rw [abs_le] at *; constructor <;> linarith)
    (by rw [abs_le] at *; constructor <;> linarith) (by linarith)
  have D3 : |s1 - (s * (2 * t - 2) + c * (2 - 4 * t))|
      ≤ 23 * (F.u * M) + 9 * (F.eta * M) + 4 * F.eta := by linarith
  obtain ⟨s2, hs2, es2, ds2, -⟩ := round_step (F := F) (x := s1 + p2)
    (y := s * (2 * t - 2) + c * (2 - 4 * t) + d * (2 * t))
    (B := 6 * M + 28 * (F.u * M) + 11 * (F.eta * M) + 5 * F.eta)
    (ex := 28 * (F.u * M) + 11 * (F.eta * M) + 5 * F.eta) hu
    (by clear ds1; rw [abs_le] at *; constructor <;> linarith)
    (by clear ds1; rw [abs_le] at *; constructor <;> linarith) (by linarith)
  have ev : (fin s hs' * (fin t ht * fin (((2 : ℕ) : ℤ) : ℝ) h2 - fin (((2 : ℕ) : ℤ) : ℝ) h2)
      + fin c hc' * (fin (((2 : ℕ) : ℤ) : ℝ) h2 - fin (((4 : ℕ) : ℤ) : ℝ) h4 * fin t ht)
      + fin d hd' * (fin (((2 : ℕ) : ℤ) : ℝ) h2 * fin t ht) : Fl F) = fin s2 hs2 := by
    rw [fin_mul, et2, fin_sub, ec0, fin_mul, ep0, fin_mul, ef4, fin_sub, ec1, fin_mul, ep1, fin_add,
      es1, fin_mul, ec2, fin_mul, ep2, fin_add, es2]
  rw [ev, toReal_fin]
  refine ⟨trivial, ?_⟩
  rw [show (1 - t) * (2 * (c - s)) + t * (2 * (d - c))
    = s * (2 * t - 2) + c * (2 - 4 * t) + d * (2 * t) by ring]
  linarith

/-- **C92**: with `M = 1000` in binary64, the derivative of a quadratic curve is computed with an
error below 10⁻¹¹ and that of a cubic one below 10⁻¹⁰. -/
theorem C92_binary64 (cosI acosI : ℝ → ℝ) (powI : ℝ → ℝ → ℝ) : let F := binary64 cosI acosI powI
    38 * F.u * 1000 + 11 * F.eta ≤ 1 / 10 ^ 11 ∧
    35 * F.u * 1000 + (12 * 1000 + 7) * F.eta ≤ 1 / 10 ^ 11 ∧
    ((1 + F.u) ^ 6 - 1) * (27 / 4 * 1000 + 9 * F.eta) + 15 * F.u * 1000
      + (88 * 1000 + 22) * F.eta ≤ 1 / 10 ^ 10 ∧
    21 * (1000 : ℝ) + 2 ≤ F.max := by
  intro F
  have hu : F.u = 1 / 2 ^ 53 := by
    show (2 : ℝ) ^ (-(53 : ℕ) : ℤ) = _
    norm_num
  have he := binary64_eta cosI acosI powI
  have e0 : 0 ≤ F.eta := F.eta_nonneg
  have he' : F.eta ≤ 1 / 10 ^ 60 := by simpa using he
  have hm := binary64_max cosI acosI powI
  have hm' : 10 ^ 60 ≤ F.max := by simpa using hm
  rw [hu]
  refine ⟨?_, ?_, ?_, ?_⟩
  · nlinarith
  · nlinarith
  · have h1 : ((1 + 1 / 2 ^ 53 : ℝ) ^ 6 - 1) ≤ 7 / 2 ^ 53 := by norm_num
    have h2 : ((1 + 1 / 2 ^ 53 : ℝ) ^ 6 - 1) * (27 / 4 * 1000 + 9 * F.eta)
        ≤ 7 / 2 ^ 53 * (27 / 4 * 1000 + 9 * F.eta) := mul_le_mul_of_nonneg_right h1 (by positivity)
    refine (add_le_add (add_le_add h2 le_rfl) le_rfl).trans ?_
    linarith
  · linarith

/-- The hypotheses of `C92_quadratic`, `C92_dd` and `C92_line` are met: the curve with control
points 0, 1, 3 (in one dimension) at t = 1/2 in binary64, with `M = 3`. -/
example (cosI acosI : ℝ → ℝ) (powI : ℝ → ℝ → ℝ) : let F := binary64 cosI acosI powI
    ∃ (q : QuadraticBezier (PointN (Fl F) 1)) (t : ℝ) (_ : t ∈ F.grid ∧ |t| ≤ F.max),
      0 < t ∧ t < 1 ∧ F.u ≤ 1 / 1024 ∧ F.eta ≤ 1 / 1024 ∧ BoundedBy 3 q.start ∧ BoundedBy 3 q.ctrl ∧
      BoundedBy 3 q.end_ ∧ 12 * (3 : ℝ) + 2 ≤ F.max ∧ deriv (q.exact 0) t = 3 := by
  intro F
  have b : ∀ k : ℕ, k ≤ 3 → BoundedBy 3 (⟨fun _ => lit (k : ℚ)⟩ : PointN (Fl F) 1) ∧
      (lit (k : ℚ) : Fl F).toReal = k := by
    intro k hk
    obtain ⟨h, e, -⟩ := lit_nat (F := F) (k := k) (by omega)
    have h3 : ((k : ℕ) : ℝ) ≤ 3 := by exact_mod_cast hk
    refine ⟨fun i => ⟨?_, ?_⟩, ?_⟩
    · show (lit (k : ℚ) : Fl F).IsFinite
      rw [e]; trivial
    · show |(lit (k : ℚ) : Fl F).toReal| ≤ 3
      rw [e, toReal_fin]
      push_cast
      rw [abs_of_nonneg (Nat.cast_nonneg _)]
      exact h3
    · rw [e, toReal_fin]
      push_cast
      rfl
  have hη : F.eta ≤ 1 / 10 ^ 60 := by simpa using binary64_eta cosI acosI powI
  have hm := F.max_ge
  refine ⟨⟨⟨fun _ => lit ((0 : ℕ) : ℚ)⟩, ⟨fun _ => lit ((1 : ℕ) : ℚ)⟩, ⟨fun _ => lit ((3 : ℕ) : ℚ)⟩⟩,
    1 / 2, ?_, by norm_num, by norm_num, ?_, hη.trans (by norm_num), (b 0 (by norm_num)).1,
    (b 1 (by norm_num)).1, (b 3 le_rfl).1, by linarith, ?_⟩
  · refine ⟨⟨1, -1, by norm_num, by norm_num, by norm_num⟩, ?_⟩
    rw [abs_of_pos (by norm_num)]
    linarith
  · show (2 : ℝ) ^ (-(53 : ℕ) : ℤ) ≤ _
    norm_num
  · refine (deriv_bern2 _ _ _ _).trans ?_
    show (1 - 1 / 2 : ℝ) * (2 * ((lit ((1 : ℕ) : ℚ) : Fl F).toReal - (lit ((0 : ℕ) : ℚ) : Fl F).toReal))
      + 1 / 2 * (2 * ((lit ((3 : ℕ) : ℚ) : Fl F).toReal - (lit ((1 : ℕ) : ℚ) : Fl F).toReal)) = 3
    rw [(b 0 (by norm_num)).2, (b 1 (by norm_num)).2, (b 3 le_rfl).2]
    norm_num

/-- The size hypothesis of `C92_bezier` is met in binary64 by every curve with four control points
and coordinates in [-1000, 1000]. -/
example (cosI acosI : ℝ → ℝ) (powI : ℝ → ℝ → ℝ) : let F := binary64 cosI acosI powI
    ((1 + F.u) ^ 2 * (1 + F.u + F.eta)) ^ (4 - 2)
      * ((4 - 1 : ℕ) * (5 / 2 * 1000 + 3 * F.eta) + (4 - 2 : ℕ) * (3 * (1 + F.u) * F.eta))
      ≤ F.max := by
  intro F
  have hη : F.eta ≤ 1 / 10 ^ 60 := by simpa using binary64_eta cosI acosI powI
  have hm : 10 ^ 60 ≤ F.max := by simpa using binary64_max cosI acosI powI
  have e0 : 0 ≤ F.eta := F.eta_nonneg
  have u0 : 0 ≤ F.u := F.u_nonneg
  have hu : F.u ≤ 1 := by
    show (2 : ℝ) ^ (-(53 : ℕ) : ℤ) ≤ _
    norm_num
  have he1 : F.eta ≤ 1 := hη.trans (by norm_num)
  have h1 : (1 + F.u) ^ 2 * (1 + F.u + F.eta) ≤ 2 ^ 2 * 3 := by
    apply mul_le_mul _ (by linarith) (by linarith) (by norm_num)
    exact pow_le_pow_left₀ (by linarith) (by linarith) 2
  have h2 : ((1 + F.u) ^ 2 * (1 + F.u + F.eta)) ^ (4 - 2) ≤ (2 ^ 2 * 3) ^ (4 - 2) :=
    pow_le_pow_left₀ (by positivity) h1 _
  have h3 : ((4 - 1 : ℕ) * (5 / 2 * 1000 + 3 * F.eta) + (4 - 2 : ℕ) * (3 * (1 + F.u) * F.eta) : ℝ)
      ≤ 3 * (5 / 2 * 1000 + 3) + 2 * (3 * 2 * 1) := by
    have h4 : (1 + F.u) * F.eta ≤ 2 * 1 := mul_le_mul (by linarith) he1 e0 (by norm_num)
    push_cast
    linarith
  refine (mul_le_mul h2 h3 (by positivity) (by positivity)).trans (le_trans ?_ hm)
  norm_num

end Stroke
