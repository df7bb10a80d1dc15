import Verif.Props.FloatBSplineSuccess
import Verif.Props.BSplineCalculus
import Verif.Props.FloatDerivative

/-!
# Derivatives in floating point, continued (C92)

`CubicBezier::dd` and the control points of `BSpline::derivative`.
-/

set_option linter.unusedSectionVars false

namespace Stroke

open Fl

variable {F : FloatFormat} {n : ℕ}

/-! ### B-splines -/

/-- What `BSpline::derivative` returns, in any arithmetic. -/
theorem derivative_any {S P : Type} [Scalar S] [Point S P] {K C D : ℕ} (b : BSpline S P K C D)
    (hK : K = C + D + 1) (hC : 2 ≤ C) :
    b.derivative = some ⟨b.knots, b.knot_kind, fun i : Fin (C - 1) =>
      (b.control_points ⟨i + 1, by omega⟩ - b.control_points ⟨i, by omega⟩)
        * (Scalar.ofUsize D / (b.knots ⟨i + D + 1, by omega⟩ - b.knots ⟨i + 1, by omega⟩) : S)⟩ := by
  unfold BSpline.derivative
  dsimp only
  rw [forBreak_fill _ _ (fun i : Fin (C - 1) =>
      (b.control_points ⟨i + 1, by omega⟩ - b.control_points ⟨i, by omega⟩)
        * (Scalar.ofUsize D / (b.knots ⟨i + D + 1, by omega⟩ - b.knots ⟨i + 1, by omega⟩) : S))
      (by omega) (by omega)]
  · rfl
  · intro i hi s
    rw [Arr.get?_lt _ (show i + 1 < C by omega), Arr.get?_lt _ (show i < C by omega),
      Arr.get?_lt _ (show i + D + 1 < K by omega), Arr.get?_lt _ (show i + 1 < K by omega)]
    simp only [Option.bind_eq_bind, Option.bind_some]
    rw [Arr.set?_lt _ hi, usub_le (by omega)]
    rfl

/-- `(b - a) * (k / (r - l))`. -/
theorem slope_step {a b l r : Fl F} {M g : ℝ} {k : ℕ} (hk1 : 1 ≤ k) (hk : k ≤ 1024)
    (hu : F.u ≤ 1 / 1024) (he : F.eta ≤ 1 / 1024)
    (ha : a.IsFinite) (hb : b.IsFinite) (hM : |a.toReal| ≤ M) (hM' : |b.toReal| ≤ M)
    (hl : l.IsFinite) (hr : r.IsFinite) (hg : g = r.toReal - l.toReal) (g0 : 0 < g)
    (heg : F.eta ≤ F.u * g) (hgm : 2 * g ≤ F.max)
    (hmax : 3 * (M * (k / g)) + 3 * M + 3 * (k / g) + 1 ≤ F.max) :
    ((b - a) * (Scalar.ofUsize k / (r - l) : Fl F)).IsFinite ∧
    |((b - a) * (Scalar.ofUsize k / (r - l) : Fl F)).toReal - k / g * (b.toReal - a.toReal)|
      ≤ 11 * F.u * (M * (k / g)) + (2 * (k / g) + 3 * M + 2) * F.eta := by
  obtain ⟨x, hx, rfl⟩ := isFinite_iff.1 ha
  obtain ⟨y, hy, rfl⟩ := isFinite_iff.1 hb
  obtain ⟨l', hl', rfl⟩ := isFinite_iff.1 hl
  obtain ⟨r', hr', rfl⟩ := isFinite_iff.1 hr
  simp only [toReal_fin] at *
  obtain ⟨hkk, -, ek⟩ := lit_nat (F := F) (k := k) hk
  have u0 := F.u_nonneg
  have e0 := F.eta_nonneg
  have M0 : 0 ≤ M := (abs_nonneg _).trans hM
  have k1 : (1 : ℝ) ≤ k := by exact_mod_cast hk1
  set ρ : ℝ := k / g with hρ
  have ρ0 : 0 < ρ := by positivity
  have Mρ : 0 ≤ M * ρ := by positivity
  have uM0 : 0 ≤ F.u * M := mul_nonneg u0 M0
  have uρ0 : 0 ≤ F.u * ρ := mul_nonneg u0 ρ0.le
  have uM : F.u * M ≤ 1 / 1024 * M := mul_le_mul_of_nonneg_right hu M0
  have uρ : F.u * ρ ≤ 1 / 1024 * ρ := mul_le_mul_of_nonneg_right hu ρ0.le
  have ug : F.u * g ≤ 1 / 1024 * g := mul_le_mul_of_nonneg_right hu g0.le
  -- the difference of the points
  have hd : |y - x| ≤ 2 * M := by
    have := abs_sub y x
    linarith
  obtain ⟨d, hd', ed, dd, nd⟩ := round_step (F := F) (x := y - x) (y := y - x) (B := 2 * M)
    (ex := 0) hu hd (by simp) (by linarith)
  -- the difference of the knots
  obtain ⟨w, hw, ew, dw, nw⟩ := round_step (F := F) (x := r' - l') (y := g) (B := g)
    (ex := 0) hu (by rw [← hg, abs_of_pos g0]) (by rw [← hg]; simp) (by linarith)
  have dw2 : |w - g| ≤ 2 * (F.u * g) := by linarith
  have w0 : 1023 / 1024 * g - F.u * g ≤ w := by
    have := (abs_le.1 dw2).1
    linarith
  have wpos : 0 < w := by linarith
  -- the quotient
  have q1 : |k / w - ρ| ≤ 41 / 20 * (F.u * ρ) := by
    have e : (k : ℝ) / w - ρ = ρ * ((g - w) / w) := by
      rw [hρ]; field_simp
    rw [e, abs_mul, abs_of_pos ρ0, abs_div, abs_of_pos wpos, abs_sub_comm g w]
    have : |w - g| / w ≤ 41 / 20 * F.u := by
      rw [div_le_iff₀ wpos]
      have := mul_le_mul_of_nonneg_left (show 1022 / 1024 * g ≤ w by linarith only [w0, ug]) u0
      have ug0 := mul_nonneg u0 g0.le
      linarith only [this, dw2, ug0]
    have := mul_le_mul_of_nonneg_left this ρ0.le
    linarith only [this]
  have q2 : |(k : ℝ) / w| ≤ 101 / 100 * ρ := by
    have := abs_add_le ((k : ℝ) / w - ρ) ρ
    rw [sub_add_cancel, abs_of_pos ρ0] at this
    linarith
  obtain ⟨q, hq, eq, dq, nq⟩ := round_step (F := F) (x := k / w) (y := ρ) (B := 101 / 100 * ρ)
    (ex := 41 / 20 * (F.u * ρ)) hu q2 q1 (by linarith)
  have dq2 : |q - ρ| ≤ 31 / 10 * (F.u * ρ) + F.eta := by linarith
  have nq2 : |q| ≤ 102 / 100 * ρ + F.eta := by linarith
  have nd2 : |d| ≤ 201 / 100 * M + F.eta := by linarith
  have dd2 : |d - (y - x)| ≤ 2 * (F.u * M) + F.eta := by linarith
  -- the product
  have eMρ : M * ρ ≥ 0 := Mρ
  have eM : F.eta * M ≤ 1 / 1024 * M := mul_le_mul_of_nonneg_right he M0
  have eρ : F.eta * ρ ≤ 1 / 1024 * ρ := mul_le_mul_of_nonneg_right he ρ0.le
  have ee : F.eta * F.eta ≤ 1 / 1024 * F.eta := mul_le_mul_of_nonneg_right he e0
  have eM0 : 0 ≤ F.eta * M := mul_nonneg e0 M0
  have eρ0 : 0 ≤ F.eta * ρ := mul_nonneg e0 ρ0.le
  have p1 : |d * q| ≤ (201 / 100 * M + F.eta) * (102 / 100 * ρ + F.eta) := by
    rw [abs_mul]
    exact mul_le_mul nd2 nq2 (abs_nonneg _) (by positivity)
  have p2 : |d * q - ρ * (y - x)|
      ≤ (201 / 100 * M + F.eta) * (31 / 10 * (F.u * ρ) + F.eta) + ρ * (2 * (F.u * M) + F.eta) := by
    have e : d * q - ρ * (y - x) = d * (q - ρ) + ρ * (d - (y - x)) := by ring
    rw [e]
    refine (abs_add_le _ _).trans (add_le_add ?_ ?_)
    · rw [abs_mul]
      exact mul_le_mul nd2 dq2 (abs_nonneg _) (by positivity)
    · rw [abs_mul, abs_of_pos ρ0]
      exact mul_le_mul_of_nonneg_left dd2 ρ0.le
  have uMρ : F.u * (M * ρ) ≤ 1 / 1024 * (M * ρ) := mul_le_mul_of_nonneg_right hu Mρ
  have uMρ0 : 0 ≤ F.u * (M * ρ) := mul_nonneg u0 Mρ
  have ueρ : F.u * (F.eta * ρ) ≤ 1 / 1024 * (F.eta * ρ) := mul_le_mul_of_nonneg_right hu eρ0
  have ueM : F.u * (F.eta * M) ≤ 1 / 1024 * (F.eta * M) := mul_le_mul_of_nonneg_right hu eM0
  have uee : F.u * (F.eta * F.eta) ≤ 1 / 1024 * (F.eta * F.eta) :=
    mul_le_mul_of_nonneg_right hu (mul_nonneg e0 e0)
  have eX : (201 / 100 * M + F.eta) * (102 / 100 * ρ + F.eta)
      = 20502 / 10000 * (M * ρ) + 201 / 100 * (F.eta * M) + 102 / 100 * (F.eta * ρ)
        + F.eta * F.eta := by ring
  obtain ⟨z, hz, ez, dz, nz⟩ := round_step (F := F) (x := d * q) (y := ρ * (y - x)) hu p1 p2
    (by rw [eX]; linarith only [hmax, uMρ, ueM, ueρ, uee, eM, eρ, ee, eM0, eρ0, Mρ, ρ0, M0, e0, he, hu])
  have hkk' : (fin ((k : ℤ) : ℝ) hkk : Fl F) / fin w hw = F.round (k / w) := by
    rw [fin_div wpos.ne']; push_cast; rfl
  rw [fin_sub, ed, fin_sub, ew, ek, hkk', eq, fin_mul, ez, toReal_fin]
  refine ⟨trivial, dz.trans ?_⟩
  rw [eX]
  have eY : (201 / 100 * M + F.eta) * (31 / 10 * (F.u * ρ) + F.eta) + ρ * (2 * (F.u * M) + F.eta)
      = 8231 / 1000 * (F.u * (M * ρ)) + 31 / 10 * (F.u * (F.eta * ρ)) + 201 / 100 * (F.eta * M)
        + F.eta * F.eta + F.eta * ρ := by ring
  rw [eY]
  linarith only [uMρ, uMρ0, ueM, ueρ, uee, eM0, eρ0, ee, he, e0,
    mul_le_mul_of_nonneg_right he eM0, mul_le_mul_of_nonneg_right he eρ0]

/-- **C92**, `BSpline::derivative`: every coordinate of every control point is finite and within
`11 u M ρ + (2 ρ + 3 M + 2) η` of `ρ (p[i+1] - p[i])`, where `ρ = D / (k[i+D+1] - k[i+1])`. -/
theorem C92_bspline {K C D : ℕ} {knots : Arr (Fl F) K} {ps : Arr (PointN (Fl F) n) C}
    {b : BSpline (Fl F) (PointN (Fl F) n) K C D} (h : BSpline.new knots ps = .ok b)
    (hk : FiniteKnots knots) {M : ℝ} (hb : ∀ i, BoundedBy M (ps i)) (hC : 2 ≤ C) (hD1 : 1 ≤ D)
    (hD : D ≤ 1024) (hu : F.u ≤ 1 / 1024) (he : F.eta ≤ 1 / 1024) :
    ∃ d, b.derivative = some d ∧ d.knots = knots ∧
      ∀ (i : ℕ) (hi : i + 1 < C) (hr : i + D + 1 < K) (hl : i + 1 < K) (g : ℝ),
        g = (knots ⟨i + D + 1, hr⟩).toReal - (knots ⟨i + 1, hl⟩).toReal → 0 < g →
        F.eta ≤ F.u * g → 2 * g ≤ F.max →
        3 * (M * (D / g)) + 3 * M + 3 * (D / g) + 1 ≤ F.max → ∀ j : Fin n,
        ((d.control_points ⟨i, by omega⟩).coords j).IsFinite ∧
        |((d.control_points ⟨i, by omega⟩).coords j).toReal
            - D / g * (((ps ⟨i + 1, hi⟩).coords j).toReal - ((ps ⟨i, by omega⟩).coords j).toReal)|
          ≤ 11 * F.u * (M * (D / g)) + (2 * (D / g) + 3 * M + 2) * F.eta := by
  obtain ⟨h1, h2, h3, hbeq⟩ := (new_generic _ _ _).1 h
  have hkn : b.knots = knots := by rw [hbeq]
  have hcp : b.control_points = ps := by rw [hbeq]
  refine ⟨_, derivative_any b (by omega) hC, hkn, ?_⟩
  intro i hi hr hl g hg g0 heg hgm hmax j
  simp only [hkn, hcp]
  rw [coords_mul, coords_sub]
  exact slope_step hD1 hD hu he (hb _ j).1 (hb _ j).1 (hb _ j).2 (hb _ j).2 (hk _) (hk _) hg g0 heg
    hgm hmax

/-- **C92**, `BSpline::derivative` with `D` equal knots inside: the control point of that span is
not finite on any axis, it is infinite or NaN. -/
theorem C92_bspline_repeated {K C D : ℕ} {knots : Arr (Fl F) K} {ps : Arr (PointN (Fl F) n) C}
    {b : BSpline (Fl F) (PointN (Fl F) n) K C D} (h : BSpline.new knots ps = .ok b)
    (hk : FiniteKnots knots) (hp : ∀ i j, ((ps i).coords j).IsFinite) (hC : 2 ≤ C) (hD1 : 1 ≤ D)
    (hD : D ≤ 1024) {i : ℕ} (hi : i + 1 < C) (hr : i + D + 1 < K) (hl : i + 1 < K)
    (heq : (knots ⟨i + D + 1, hr⟩).toReal = (knots ⟨i + 1, hl⟩).toReal) :
    ∃ d, b.derivative = some d ∧ ∀ j : Fin n,
      ¬ ((d.control_points ⟨i, by omega⟩).coords j).IsFinite ∧
      (((ps ⟨i + 1, hi⟩).coords j).toReal = ((ps ⟨i, by omega⟩).coords j).toReal →
        (d.control_points ⟨i, by omega⟩).coords j = nan) := by
  obtain ⟨h1, h2, h3, hbeq⟩ := (new_generic _ _ _).1 h
  have hkn : b.knots = knots := by rw [hbeq]
  have hcp : b.control_points = ps := by rw [hbeq]
  refine ⟨_, derivative_any b (by omega) hC, ?_⟩
  intro j
  simp only [hkn, hcp]
  rw [coords_mul, coords_sub]
  obtain ⟨x, hx, ex⟩ := isFinite_iff.1 (hp ⟨i + 1, hi⟩ j)
  obtain ⟨y, hy, ey⟩ := isFinite_iff.1 (hp ⟨i, by omega⟩ j)
  obtain ⟨r, hr', er⟩ := isFinite_iff.1 (hk ⟨i + D + 1, hr⟩)
  obtain ⟨l, hl', el⟩ := isFinite_iff.1 (hk ⟨i + 1, hl⟩)
  rw [er, el, toReal_fin, toReal_fin] at heq
  obtain ⟨hkk, -, ek⟩ := lit_nat (F := F) (k := D) hD
  have z0 : (0 : ℝ) ∈ F.grid ∧ |(0 : ℝ)| ≤ F.max := by
    have := F.int_ok 0 (by norm_num)
    push_cast at this
    exact this
  have hq : (Scalar.ofUsize D : Fl F) / (knots ⟨i + D + 1, hr⟩ - knots ⟨i + 1, hl⟩) = inf false := by
    rw [er, el, fin_sub, heq, sub_self, F.round_of_mem z0, ek]
    show (if (0 : ℝ) = 0 then (if ((D : ℤ) : ℝ) = 0 then nan else inf (decide (((D : ℤ) : ℝ) < 0)))
      else F.round (((D : ℤ) : ℝ) / 0) : Fl F) = _
    have hD0 : (0 : ℝ) < ((D : ℤ) : ℝ) := by exact_mod_cast hD1
    rw [if_pos rfl, if_neg hD0.ne', decide_eq_false (not_lt.2 hD0.le)]
  rw [hq]
  constructor
  · intro hf
    cases hd : ((ps ⟨i + 1, hi⟩).coords j - (ps ⟨i, by omega⟩).coords j : Fl F) with
    | nan => rw [hd] at hf; exact hf
    | inf s => rw [hd] at hf; exact hf
    | fin v hv =>
      rw [hd] at hf
      change (if v = 0 then nan else inf (false != decide (v < 0)) : Fl F).IsFinite at hf
      split_ifs at hf <;> exact hf
  · intro he
    rw [ex, ey, toReal_fin, toReal_fin] at he
    rw [ex, ey, fin_sub, he, sub_self, F.round_of_mem z0]
    exact if_pos rfl

/-! ### `CubicBezier::dd` -/

set_option maxHeartbeats 1000000 in
/-- **C92**, `CubicBezier::dd`: no panic on an existing axis, a finite value, and within
`164 u M + (73 M + 10) η` of what its formula says, which is the derivative of that coordinate only
up to the term `3 t (t - 1) start` (C23). -/
theorem C92_cubic_dd (q : CubicBezier (PointN (Fl F) n)) {t M : ℝ}
    (ht : t ∈ F.grid ∧ |t| ≤ F.max) (t0 : 0 ≤ t) (t1 : t ≤ 1)
    (hu : F.u ≤ 1 / 1024) (he : F.eta ≤ 1 / 1024)
    (hs : BoundedBy M q.start) (hc : BoundedBy M q.ctrl1) (hc' : BoundedBy M q.ctrl2)
    (hd : BoundedBy M q.end_) (hmax : 13 * M + 1 ≤ F.max) (i : Fin n) :
    ∃ v, q.dd (fin t ht) i = some v ∧ v.IsFinite ∧
      |v.toReal - (deriv (q.exact i) t + 3 * t * (t - 1) * (q.start.coords i).toReal)|
        ≤ 164 * F.u * M + (73 * M + 10) * F.eta := by
  have mx := F.max_ge
  have u0 := F.u_nonneg
  have e0 := F.eta_nonneg
  obtain ⟨fs, bs⟩ := hs i
  obtain ⟨fc, bc⟩ := hc i
  obtain ⟨fc', bc'⟩ := hc' i
  obtain ⟨fd, bd⟩ := hd i
  have hder : deriv (q.exact i) t = _ := deriv_bern3 (q.start.coords i).toReal
    (q.ctrl1.coords i).toReal (q.ctrl2.coords i).toReal (q.end_.coords i).toReal t
  rw [hder]
  obtain ⟨s, hs', es⟩ := isFinite_iff.1 fs
  obtain ⟨c, hc₁, ec⟩ := isFinite_iff.1 fc
  obtain ⟨d, hc₂, ed⟩ := isFinite_iff.1 fc'
  obtain ⟨e, hd', ee⟩ := isFinite_iff.1 fd
  have hdd : q.dd (fin t ht) i = some (
      q.start.coords i * (fin t ht * lit (-3) + fin t ht * lit 6 - lit 3)
      + q.ctrl1.coords i * (fin t ht * fin t ht * lit 9 - fin t ht * lit 12 + lit 3)
      + q.ctrl2.coords i * (fin t ht * fin t ht * lit (-9) + fin t ht * lit 6)
      + q.end_.coords i * (fin t ht * fin t ht * lit 3)) := by
    unfold CubicBezier.dd
    rw [axis_some_pn _ i.isLt, axis_some_pn _ i.isLt, axis_some_pn _ i.isLt, axis_some_pn _ i.isLt]
    rfl
  rw [hdd]
  refine ⟨_, rfl, ?_⟩
  have L : ∀ k : ℤ, |k| ≤ 1024 → ∃ h, (lit (k : ℚ) : Fl F) = fin (k : ℝ) h :=
    fun k hk => ⟨_, lit_int (F := F) k hk⟩
  obtain ⟨n3, em3⟩ := L (-3) (by norm_num)
  obtain ⟨h6, e6⟩ := L 6 (by norm_num)
  obtain ⟨h3, e3⟩ := L 3 (by norm_num)
  obtain ⟨h9, e9⟩ := L 9 (by norm_num)
  obtain ⟨h12, e12⟩ := L 12 (by norm_num)
  obtain ⟨n9, em9⟩ := L (-9) (by norm_num)
  have em3' : (lit (-3) : Fl F) = fin ((-3 : ℤ) : ℝ) n3 := by exact_mod_cast em3
  have e6' : (lit 6 : Fl F) = fin ((6 : ℤ) : ℝ) h6 := by exact_mod_cast e6
  have e3' : (lit 3 : Fl F) = fin ((3 : ℤ) : ℝ) h3 := by exact_mod_cast e3
  have e9' : (lit 9 : Fl F) = fin ((9 : ℤ) : ℝ) h9 := by exact_mod_cast e9
  have e12' : (lit 12 : Fl F) = fin ((12 : ℤ) : ℝ) h12 := by exact_mod_cast e12
  have em9' : (lit (-9) : Fl F) = fin ((-9 : ℤ) : ℝ) n9 := by exact_mod_cast em9
  rw [es] at bs ⊢
  rw [ec] at bc ⊢
  rw [ed] at bc' ⊢
  rw [ee] at bd ⊢
  rw [em3', e6', e3', e9', e12', em9']
  rw [toReal_fin] at bs bc bc' bd
  rw [toReal_fin, toReal_fin, toReal_fin, toReal_fin]
  have M0 : 0 ≤ M := (abs_nonneg _).trans bs
  have uM0 : 0 ≤ F.u * M := mul_nonneg u0 M0
  have eM0 : 0 ≤ F.eta * M := mul_nonneg e0 M0
  have uM : F.u * M ≤ 1 / 1024 * M := mul_le_mul_of_nonneg_right hu M0
  have eM : F.eta * M ≤ 1 / 1024 * M := mul_le_mul_of_nonneg_right he M0
  have uuM : F.u * (F.u * M) ≤ 1 / 1024 * (F.u * M) := mul_le_mul_of_nonneg_right hu uM0
  have ueM : F.u * (F.eta * M) ≤ 1 / 1024 * (F.eta * M) := mul_le_mul_of_nonneg_right hu eM0
  have ue : F.u * F.eta ≤ 1 / 1024 * F.eta := mul_le_mul_of_nonneg_right hu e0
  have uu : F.u * F.u ≤ 1 / 1024 * F.u := mul_le_mul_of_nonneg_right hu u0
  have tt0 : 0 ≤ t * t := mul_nonneg t0 t0
  have tt1 : t * t ≤ t := mul_le_of_le_one_left t0 t1
  have tm : 0 ≤ (2 - 3 * t) * (2 - 3 * t) := mul_self_nonneg _
  have tm' : 0 ≤ (1 - 3 * t) * (1 - 3 * t) := mul_self_nonneg _
  -- one rounding: exact value `y` in `[lo, hi]`, accumulated error `K u + H η`
  have step : ∀ (x y B K H : ℝ), |y| ≤ B → |x - y| ≤ K * F.u + H * F.eta → 0 ≤ K → 0 ≤ H →
      0 ≤ B → B ≤ 20 → K ≤ 100 → H ≤ 100 →
      ∃ z hz, F.round x = fin z hz ∧ |z - y| ≤ (B + K + 1) * F.u + (H + 2) * F.eta := by
    intro x y B K H hy hxy K0 H0 B0 B20 K100 H100
    have hx : |x| ≤ B + (K * F.u + H * F.eta) := by
      have := abs_add_le (x - y) y
      rw [sub_add_cancel] at this
      linarith
    have k1 : F.u * (K * F.u) ≤ 100 / 1024 * F.u := by
      have := mul_le_mul K100 uu (mul_nonneg u0 u0) (by norm_num)
      linarith
    have k2 : F.u * (H * F.eta) ≤ 100 / 1024 * F.eta := by
      have := mul_le_mul H100 ue (mul_nonneg u0 e0) (by norm_num)
      linarith
    have k3 : K * F.u ≤ 100 / 1024 := by
      have := mul_le_mul K100 hu u0 (by norm_num)
      linarith
    have k4 : H * F.eta ≤ 100 / 1024 := by
      have := mul_le_mul H100 he e0 (by norm_num)
      linarith
    have k5 : F.u * B ≤ 20 / 1024 := by
      have := mul_le_mul hu B20 B0 (by norm_num)
      linarith
    obtain ⟨z, hz, ez, dz, -⟩ := round_step (F := F) hu hx hxy (by linarith)
    exact ⟨z, hz, ez, by linarith⟩
  have A : ∀ {z y a b : ℝ}, -b ≤ y → y ≤ a → a ≤ b → |y| ≤ b := by
    intro z y a b h1 h2 h3; rw [abs_le]; exact ⟨h1, h2.trans h3⟩
  obtain ⟨t2, ht2, et2, dt2⟩ := step (t * t) (t * t) 1 0 0 (abs_le.2 ⟨by linarith, by linarith⟩)
    (by simp) (by norm_num) (by norm_num) (by norm_num) (by norm_num) (by norm_num) (by norm_num)
  obtain ⟨a1, ha1, ea1, da1⟩ := step (t * ((-3 : ℤ) : ℝ)) (-3 * t) 3 0 0
    (abs_le.2 ⟨by linarith, by linarith⟩) (by push_cast; rw [mul_comm]; simp)
    (by norm_num) (by norm_num) (by norm_num) (by norm_num) (by norm_num) (by norm_num)
  obtain ⟨a2, ha2, ea2, da2⟩ := step (t * ((6 : ℤ) : ℝ)) (6 * t) 6 0 0
    (abs_le.2 ⟨by linarith, by linarith⟩) (by push_cast; rw [mul_comm]; simp)
    (by norm_num) (by norm_num) (by norm_num) (by norm_num) (by norm_num) (by norm_num)
  obtain ⟨a3, ha3, ea3, da3⟩ := step (a1 + a2) (3 * t) 3 11 4
    (abs_le.2 ⟨by linarith, by linarith⟩)
    (by rw [abs_le] at da1 da2 ⊢; constructor <;> linarith)
    (by norm_num) (by norm_num) (by norm_num) (by norm_num) (by norm_num) (by norm_num)
  obtain ⟨c0, hc0, ec0, dc0⟩ := step (a3 - ((3 : ℤ) : ℝ)) (3 * t - 3) 3 15 6
    (abs_le.2 ⟨by linarith, by linarith⟩)
    (by push_cast; rw [abs_le] at da3 ⊢; constructor <;> linarith)
    (by norm_num) (by norm_num) (by norm_num) (by norm_num) (by norm_num) (by norm_num)
  obtain ⟨b1, hb1, eb1, db1⟩ := step (t2 * ((9 : ℤ) : ℝ)) (9 * (t * t)) 9 18 18
    (abs_le.2 ⟨by linarith, by linarith⟩)
    (by push_cast; rw [abs_le] at dt2 ⊢; constructor <;> linarith)
    (by norm_num) (by norm_num) (by norm_num) (by norm_num) (by norm_num) (by norm_num)
  obtain ⟨b2, hb2, eb2, db2⟩ := step (t * ((12 : ℤ) : ℝ)) (12 * t) 12 0 0
    (abs_le.2 ⟨by linarith, by linarith⟩) (by push_cast; rw [mul_comm]; simp)
    (by norm_num) (by norm_num) (by norm_num) (by norm_num) (by norm_num) (by norm_num)
  obtain ⟨b3, hb3, eb3, db3⟩ := step (b1 - b2) (9 * (t * t) - 12 * t) 4 41 22
    (abs_le.2 ⟨by linarith, by linarith⟩)
    (by rw [abs_le] at db1 db2 ⊢; constructor <;> linarith)
    (by norm_num) (by norm_num) (by norm_num) (by norm_num) (by norm_num) (by norm_num)
  obtain ⟨c1, hc1, ec1, dc1⟩ := step (b3 + ((3 : ℤ) : ℝ)) (9 * (t * t) - 12 * t + 3) 3 46 24
    (abs_le.2 ⟨by linarith, by linarith⟩)
    (by push_cast; rw [abs_le] at db3 ⊢; constructor <;> linarith)
    (by norm_num) (by norm_num) (by norm_num) (by norm_num) (by norm_num) (by norm_num)
  obtain ⟨g1, hg1, eg1, dg1⟩ := step (t2 * ((-9 : ℤ) : ℝ)) (-9 * (t * t)) 9 18 18
    (abs_le.2 ⟨by linarith, by linarith⟩)
    (by push_cast; rw [abs_le] at dt2 ⊢; constructor <;> linarith)
    (by norm_num) (by norm_num) (by norm_num) (by norm_num) (by norm_num) (by norm_num)
  obtain ⟨c2, hc2, ec2, dc2⟩ := step (g1 + a2) (-9 * (t * t) + 6 * t) 3 35 22
    (abs_le.2 ⟨by linarith, by linarith⟩)
    (by rw [abs_le] at dg1 da2 ⊢; constructor <;> linarith)
    (by norm_num) (by norm_num) (by norm_num) (by norm_num) (by norm_num) (by norm_num)
  obtain ⟨c3, hc3, ec3, dc3⟩ := step (t2 * ((3 : ℤ) : ℝ)) (3 * (t * t)) 3 6 6
    (abs_le.2 ⟨by linarith, by linarith⟩)
    (by push_cast; rw [abs_le] at dt2 ⊢; constructor <;> linarith)
    (by norm_num) (by norm_num) (by norm_num) (by norm_num) (by norm_num) (by norm_num)
  -- one product
  have prod : ∀ (p k w K H : ℝ), |p| ≤ M → |k - w| ≤ K * F.u + H * F.eta → |w| ≤ 3 →
      0 ≤ K → 0 ≤ H → K ≤ 60 → H ≤ 60 →
      ∃ z hz, F.round (p * k) = fin z hz ∧
        |z - p * w| ≤ (K + 4) * (F.u * M) + (H + 1) * (F.eta * M) + F.eta ∧ |p * w| ≤ 3 * M := by
    intro p k w K H hp hk hw K0 H0 K60 H60
    have hk' : |k| ≤ 3 + (K * F.u + H * F.eta) := by
      have := abs_add_le (k - w) w
      rw [sub_add_cancel] at this
      linarith
    have h1 : |p * k| ≤ M * (3 + (K * F.u + H * F.eta)) := by
      rw [abs_mul]
      exact mul_le_mul hp hk' (abs_nonneg _) M0
    have h2 : |p * k - p * w| ≤ M * (K * F.u + H * F.eta) := by
      rw [← mul_sub, abs_mul]
      exact mul_le_mul hp hk (abs_nonneg _) M0
    have k1 : K * (F.u * M) ≤ 60 / 1024 * M := by
      have := mul_le_mul K60 uM uM0 (by norm_num)
      linarith
    have k2 : H * (F.eta * M) ≤ 60 / 1024 * M := by
      have := mul_le_mul H60 eM eM0 (by norm_num)
      linarith
    have k3 : K * (F.u * (F.u * M)) ≤ 60 / 1024 * (F.u * M) := by
      have := mul_le_mul K60 uuM (mul_nonneg u0 uM0) (by norm_num)
      linarith
    have k4 : H * (F.u * (F.eta * M)) ≤ 60 / 1024 * (F.eta * M) := by
      have := mul_le_mul H60 ueM (mul_nonneg u0 eM0) (by norm_num)
      linarith
    obtain ⟨z, hz, ez, dz, -⟩ := round_step (F := F) hu h1 h2 (by linarith)
    refine ⟨z, hz, ez, by linarith, ?_⟩
    rw [abs_mul, mul_comm]
    exact mul_le_mul hw hp (abs_nonneg _) (by norm_num)
  obtain ⟨p0, hp0, ep0, D0, Q0⟩ := prod s c0 (3 * t - 3) 19 8 bs (by linarith)
    (abs_le.2 ⟨by linarith, by linarith⟩) (by norm_num) (by norm_num) (by norm_num) (by norm_num)
  obtain ⟨p1, hp1, ep1, D1, Q1⟩ := prod c c1 (9 * (t * t) - 12 * t + 3) 50 26 bc (by linarith)
    (abs_le.2 ⟨by linarith, by linarith⟩) (by norm_num) (by norm_num) (by norm_num) (by norm_num)
  obtain ⟨p2, hp2, ep2, D2, Q2⟩ := prod d c2 (-9 * (t * t) + 6 * t) 39 24 bc' (by linarith)
    (abs_le.2 ⟨by linarith, by linarith⟩) (by norm_num) (by norm_num) (by norm_num) (by norm_num)
  obtain ⟨p3, hp3, ep3, D3, Q3⟩ := prod e c3 (3 * (t * t)) 10 8 bd (by linarith)
    (abs_le.2 ⟨by linarith, by linarith⟩) (by norm_num) (by norm_num) (by norm_num) (by norm_num)
  clear dt2 da1 da2 da3 dc0 db1 db2 db3 dc1 dg1 dc2 dc3 prod step A
  obtain ⟨s1, hs1, es1, ds1, -⟩ := round_step (F := F) (x := p0 + p1)
    (y := s * (3 * t - 3) + c * (9 * (t * t) - 12 * t + 3))
    (B := 6 * M + 77 * (F.u * M) + 36 * (F.eta * M) + 2 * F.eta)
    (ex := 77 * (F.u * M) + 36 * (F.eta * M) + 2 * F.eta) hu
    (by rw [abs_le] at *; constructor <;> linarith only [D0, D1, Q0, Q1])
    (by rw [abs_le] at *; constructor <;> linarith only [D0, D1]) (by linarith)
  have E1 : |s1 - (s * (3 * t - 3) + c * (9 * (t * t) - 12 * t + 3))|
      ≤ 84 * (F.u * M) + 37 * (F.eta * M) + 4 * F.eta := by linarith
  clear ds1
  obtain ⟨s2, hs2, es2, ds2, -⟩ := round_step (F := F) (x := s1 + p2)
    (y := s * (3 * t - 3) + c * (9 * (t * t) - 12 * t + 3) + d * (-9 * (t * t) + 6 * t))
    (B := 9 * M + 127 * (F.u * M) + 62 * (F.eta * M) + 5 * F.eta)
    (ex := 127 * (F.u * M) + 62 * (F.eta * M) + 5 * F.eta) hu
    (by rw [abs_le] at *; constructor <;> linarith only [E1, D2, Q0, Q1, Q2])
    (by rw [abs_le] at *; constructor <;> linarith only [E1, D2]) (by linarith)
  have E2 : |s2 - (s * (3 * t - 3) + c * (9 * (t * t) - 12 * t + 3) + d * (-9 * (t * t) + 6 * t))|
      ≤ 137 * (F.u * M) + 63 * (F.eta * M) + 7 * F.eta := by linarith
  clear ds2
  obtain ⟨s3, hs3, es3, ds3, -⟩ := round_step (F := F) (x := s2 + p3)
    (y := s * (3 * t - 3) + c * (9 * (t * t) - 12 * t + 3) + d * (-9 * (t * t) + 6 * t)
      + e * (3 * (t * t)))
    (B := 12 * M + 151 * (F.u * M) + 72 * (F.eta * M) + 8 * F.eta)
    (ex := 151 * (F.u * M) + 72 * (F.eta * M) + 8 * F.eta) hu
    (by rw [abs_le] at *; constructor <;> linarith only [E2, D3, Q0, Q1, Q2, Q3])
    (by rw [abs_le] at *; constructor <;> linarith only [E2, D3]) (by linarith)
  rw [fin_mul, ea1, fin_mul, ea2, fin_add, ea3, fin_sub, ec0, fin_mul, ep0, fin_mul, et2, fin_mul,
    eb1, fin_mul, eb2, fin_sub, eb3, fin_add, ec1, fin_mul, ep1, fin_add, es1, fin_mul, eg1, fin_add,
    ec2, fin_mul, ep2, fin_add, es2, fin_mul, ec3, fin_mul, ep3, fin_add, es3, toReal_fin]
  refine ⟨trivial, ?_⟩
  have ev : bern2 t (3 * (c - s)) (3 * (d - c)) (3 * (e - d)) + 3 * t * (t - 1) * s
      = s * (3 * t - 3) + c * (9 * (t * t) - 12 * t + 3) + d * (-9 * (t * t) + 6 * t)
        + e * (3 * (t * t)) := by
    unfold bern2; ring
  rw [ev]
  linarith

/-! ### The hypotheses are met -/

/-- Whole numbers as knots. -/
noncomputable def natKnots {K : ℕ} (z : Fin K → ℕ) : Arr (Fl F) K := fun i => lit (z i : ℚ)

theorem natKnots_ok {K C D : ℕ} {P : Type} [Point (Fl F) P] (z : Fin K → ℕ) (hz : ∀ i, z i ≤ 1024)
    (hm : Monotone z) (hC : D < C) (hK : K = C + D + 1) (ps : Arr P C) :
    FiniteKnots (natKnots (F := F) z) ∧ (∀ i, (natKnots (F := F) z i).toReal = z i) ∧
    ∃ b : BSpline (Fl F) P K C D, BSpline.new (natKnots z) ps = .ok b := by
  have h1 : ∀ i, ∃ h, natKnots (F := F) z i = fin (((z i : ℕ) : ℤ) : ℝ) h := by
    intro i
    obtain ⟨h, e, -⟩ := lit_nat (F := F) (k := z i) (hz i)
    exact ⟨h, e⟩
  have hf : FiniteKnots (natKnots (F := F) z) := by
    intro i
    obtain ⟨h, e⟩ := h1 i
    rw [e]; trivial
  have hr : ∀ i, (natKnots (F := F) z i).toReal = z i := by
    intro i
    obtain ⟨h, e⟩ := h1 i
    rw [e, toReal_fin]; push_cast; rfl
  refine ⟨hf, hr, (C43_float (D := D) hf ps).2 ⟨hC, hK, fun i j hij => ?_⟩⟩
  show (natKnots z i).toReal ≤ (natKnots z j).toReal
  rw [hr, hr]
  exact_mod_cast hm hij

/-- Test: a quadratic spline over the knots 0 0 0 1 3 3 3 with control points between 0 and 9, in
any format with the usual precision. -/
example (hu : F.u ≤ 1 / 1024) (he : F.eta ≤ F.u / 1024) :
    ∃ (b : BSpline (Fl F) (PointN (Fl F) 2) 7 4 2) (d : BSpline (Fl F) (PointN (Fl F) 2) 7 3 1),
      BSpline.new (natKnots ![0, 0, 0, 1, 3, 3, 3])
        (fun i => ⟨fun j => lit ((3 * i.val : ℕ) : ℚ)⟩) = .ok b ∧
      b.derivative = some d ∧ ∀ j : Fin 2,
        |((d.control_points 1).coords j).toReal - 2| ≤ 66 * F.u + 31 * F.eta := by
  have u0 := F.u_nonneg
  have e0 := F.eta_nonneg
  have mx := F.max_ge
  let ps : Arr (PointN (Fl F) 2) 4 := fun i => ⟨fun j => lit ((3 * i.val : ℕ) : ℚ)⟩
  obtain ⟨hf, hr, b, hb⟩ := natKnots_ok (F := F) (D := 2) ![0, 0, 0, 1, 3, 3, 3] (by decide)
    (by intro i j; revert i j; decide) (by norm_num) (by norm_num) ps
  have hp : ∀ i : Fin 4, ∀ j, ((ps i).coords j).IsFinite ∧
      ((ps i).coords j).toReal = 3 * (i.val : ℝ) := by
    intro i j
    obtain ⟨h, e, -⟩ := lit_nat (F := F) (k := 3 * i.val) (by omega)
    constructor
    · show (lit ((3 * i.val : ℕ) : ℚ) : Fl F).IsFinite
      rw [e]; trivial
    · show (lit ((3 * i.val : ℕ) : ℚ) : Fl F).toReal = _
      rw [e, toReal_fin]; push_cast; rfl
  have hB : ∀ i, BoundedBy 9 (ps i) := by
    intro i j
    refine ⟨(hp i j).1, ?_⟩
    rw [(hp i j).2, abs_of_nonneg (by positivity)]
    have : (i.val : ℝ) ≤ 3 := by exact_mod_cast (show i.val ≤ 3 by omega)
    linarith
  obtain ⟨d, hd, -, h⟩ := C92_bspline hb hf hB (by norm_num) (by norm_num) (by norm_num) hu
    (by linarith)
  refine ⟨b, d, hb, hd, fun j => ?_⟩
  have := (h 1 (by norm_num) (by norm_num) (by norm_num) 3 (by rw [hr, hr]; norm_num)
    (by norm_num) (by linarith) (by linarith) (by norm_num; linarith) j).2
  rw [(hp _ j).2, (hp _ j).2] at this
  norm_num at this
  refine le_trans ?_ (this.trans ?_)
  · exact le_of_eq rfl
  · linarith

/-- Test: a degree-1 spline over the knots 0 0 0 1 1, whose first span is empty. -/
example : ∃ (b : BSpline (Fl F) (PointN (Fl F) 2) 5 3 1) (d : BSpline (Fl F) (PointN (Fl F) 2) 5 2 0),
    BSpline.new (natKnots ![0, 0, 0, 1, 1]) (fun _ => ⟨fun _ => lit 3⟩) = .ok b ∧
      b.derivative = some d ∧ ∀ j, (d.control_points 0).coords j = nan := by
  let ps : Arr (PointN (Fl F) 2) 3 := fun _ => ⟨fun _ => lit 3⟩
  obtain ⟨hf, hr, b, hb⟩ := natKnots_ok (F := F) (D := 1) ![0, 0, 0, 1, 1] (by decide)
    (by intro i j; revert i j; decide) (by norm_num) (by norm_num) ps
  obtain ⟨h3, e3, -⟩ := lit_nat (F := F) (k := 3) (by norm_num)
  have hp : ∀ i j, ((ps i).coords j).IsFinite := by
    intro i j
    show (lit (3 : ℚ) : Fl F).IsFinite
    have e3' : (lit 3 : Fl F) = fin (((3 : ℕ) : ℤ) : ℝ) h3 := by exact_mod_cast e3
    rw [e3']; trivial
  obtain ⟨d, hd, h⟩ := C92_bspline_repeated hb hf hp (by norm_num) (by norm_num) (by norm_num)
    (i := 0) (by norm_num) (by norm_num) (by norm_num) (by rw [hr, hr]; rfl)
  exact ⟨b, d, hb, hd, fun j => (h j).2 rfl⟩

/-- Test: `C92_cubic_dd` applies in binary64 to a cubic curve with coordinates up to 10. -/
example (cosI acosI : ℝ → ℝ) (powI : ℝ → ℝ → ℝ)
    (c : CubicBezier (PointN (Fl (binary64 cosI acosI powI)) 2))
    (hs : BoundedBy 10 c.start) (hc : BoundedBy 10 c.ctrl1) (hc' : BoundedBy 10 c.ctrl2)
    (hd : BoundedBy 10 c.end_) (ht : (1 / 2 : ℝ) ∈ (binary64 cosI acosI powI).grid ∧
      |(1 / 2 : ℝ)| ≤ (binary64 cosI acosI powI).max) :
    ∃ v, c.dd (fin (1 / 2) ht) 0 = some v ∧ v.IsFinite := by
  have hη := binary64_eta cosI acosI powI
  have hm := binary64_max cosI acosI powI
  obtain ⟨v, hv, hf, -⟩ := C92_cubic_dd c ht (by norm_num) (by norm_num)
    (by show (2 : ℝ) ^ (-(53 : ℕ) : ℤ) ≤ _; norm_num) (hη.trans (by norm_num)) hs hc hc' hd
    (by norm_num at hm ⊢; linarith) 0
  exact ⟨v, hv, hf⟩

end Stroke
