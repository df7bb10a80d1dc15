import Verif.Props.Uniqueness

set_option linter.unusedSectionVars false

/-!
# Cuts can be made in any order and undone (C102)
-/

namespace Stroke

variable {P : Type} [Point ℝ P] [LawfulPoint P] {N : ℕ}

/-- Curves that agree everywhere have the same control points. -/
theorem bezier_ext {b b' : Bezier P N} (h : 1 ≤ N → ∀ s : ℝ, b.eval s = b'.eval s) : b = b' := by
  have : b.control_points = b'.control_points := by
    rcases Nat.eq_zero_or_pos N with rfl | hN
    · funext k; exact k.elim0
    refine C93_bezier b b' ((Finset.range N).image fun k : ℕ => (k : ℝ)) ?_ fun t _ => h hN t
    rw [Finset.card_image_of_injective _ Nat.cast_injective, Finset.card_range]
  cases b; cases b'; simpa using this

/-- **C102**, `Bezier`: cutting a part again is the same as cutting the whole curve:
the start of the start, the end of the end, and the middle piece in either order. -/
theorem C102_bezier (b : Bezier P N) (t s : ℝ) :
    ∃ l r ll lr rl rr x y x' y', b.split t = some (l, r) ∧
      l.split s = some (ll, lr) ∧ r.split s = some (rl, rr) ∧
      b.split (t * s) = some (x, x') ∧ ll = x ∧
      b.split (t + (1 - t) * s) = some (y', y) ∧ rr = y ∧
      -- the piece from `t s` to `t`
      (t * s ≠ 1 → ∃ m z, x'.split ((t - t * s) / (1 - t * s)) = some (m, z) ∧ lr = m) ∧
      -- the piece from `t` to `t + (1 - t) s`
      (t + (1 - t) * s ≠ 0 → ∃ z m, y'.split (t / (t + (1 - t) * s)) = some (z, m) ∧ rl = m) := by
  obtain ⟨l, r, h, hlr⟩ := C33_split b t
  obtain ⟨ll, lr, h1, hl⟩ := C33_split l s
  obtain ⟨rl, rr, h2, hr⟩ := C33_split r s
  obtain ⟨x, x', h3, hx⟩ := C33_split b (t * s)
  obtain ⟨y', y, h4, hy⟩ := C33_split b (t + (1 - t) * s)
  refine ⟨l, r, ll, lr, rl, rr, x, y, x', y', h, h1, h2, h3, bezier_ext fun hN u => ?_, h4,
    bezier_ext fun hN u => ?_, fun hne => ?_, fun hne => ?_⟩
  · rw [(hl hN u).1, (hlr hN _).1, (hx hN u).1, mul_assoc]
  · rw [(hr hN u).2, (hlr hN _).2, (hy hN u).2]
    congr 1; ring
  · obtain ⟨m, z, h5, hm⟩ := C33_split x' ((t - t * s) / (1 - t * s))
    refine ⟨m, z, h5, bezier_ext fun hN u => ?_⟩
    rw [(hl hN u).2, (hlr hN _).1, (hm hN u).1, (hx hN _).2]
    have : 1 - t * s ≠ 0 := fun e => hne (by linarith)
    congr 1; field_simp
  · obtain ⟨z, m, h5, hm⟩ := C33_split y' (t / (t + (1 - t) * s))
    refine ⟨z, m, h5, bezier_ext fun hN u => ?_⟩
    rw [(hr hN u).1, (hlr hN _).2, (hm hN u).2, (hy hN _).1]
    congr 1; field_simp; ring

/-- **C102**: a part extends back to the whole curve: `split` of the left part at `1 / t`, or of
the right part at `-t / (1 - t)`, returns the curve before the cut. -/
theorem C102_undo (b : Bezier P N) (t : ℝ) :
    ∃ l r, b.split t = some (l, r) ∧
      (t ≠ 0 → ∃ z, l.split (1 / t) = some (b, z)) ∧
      (t ≠ 1 → ∃ z, r.split (-t / (1 - t)) = some (z, b)) := by
  obtain ⟨l, r, h, hlr⟩ := C33_split b t
  refine ⟨l, r, h, fun h0 => ?_, fun h1 => ?_⟩
  · obtain ⟨x, z, h3, hx⟩ := C33_split l (1 / t)
    refine ⟨z, ?_⟩
    rw [h3]
    congr 2
    refine bezier_ext fun hN u => ?_
    rw [(hx hN u).1, (hlr hN _).1]
    congr 1; field_simp
  · obtain ⟨z, x, h3, hx⟩ := C33_split r (-t / (1 - t))
    refine ⟨z, ?_⟩
    rw [h3]
    congr 2
    refine bezier_ext fun hN u => ?_
    rw [(hx hN u).2, (hlr hN _).2]
    have : 1 - t ≠ 0 := fun e => h1 (by linarith)
    congr 1; field_simp; ring

/-- **C102**: cutting and differentiating commute: the control points of the derivative of the
left part are `t` times those of the left part of the derivative, and `1 - t` times on the right. -/
theorem C102_derivative (b : Bezier P N) (hN : 2 ≤ N) (t : ℝ) :
    ∃ l r d dl dr dl' dr', b.split t = some (l, r) ∧ Bezier.derivative (S := ℝ) b = some d ∧
      Bezier.derivative (S := ℝ) l = some dl ∧ Bezier.derivative (S := ℝ) r = some dr ∧
      d.split t = some (dl', dr') ∧
      (∀ k, dl.control_points k = dl'.control_points k * t) ∧
      (∀ k, dr.control_points k = dr'.control_points k * (1 - t)) := by
  obtain ⟨l, r, h, hlr⟩ := C33_split b t
  obtain ⟨d, hd, _⟩ := C34_derivative b hN 0
  obtain ⟨dl, hdl, _⟩ := C34_derivative l hN 0
  obtain ⟨dr, hdr, _⟩ := C34_derivative r hN 0
  obtain ⟨dl', dr', h', hlr'⟩ := C33_split d t
  have hN1 : 1 ≤ N - 1 := by omega
  -- the value of a derivative curve, through the curve it came from
  have der : ∀ {c dc : Bezier P N} {e : Bezier P (N - 1)}, Bezier.derivative (S := ℝ) c = some e →
      ∀ s : ℝ, ∃ (f : ℝ → P) (v : P), (∀ u, c.eval u = some (f u)) ∧ e.eval s = some v ∧
        HasPointDerivAt f (coord v) s := by
    intro c dc e he s
    obtain ⟨e', he', rest⟩ := C34_derivative c hN s
    rw [he] at he'
    cases he'
    exact rest
  have scaled : ∀ (e : Bezier P (N - 1)) (x s : ℝ) (v : P), e.eval s = some v →
      (⟨fun k => e.control_points k * x⟩ : Bezier P (N - 1)).eval s = some (v * x) := by
    intro e x s v hv
    obtain ⟨q, hq, hc⟩ := C30_eval e hN1 s
    obtain ⟨q', hq', hc'⟩ := C30_eval (⟨fun k => e.control_points k * x⟩ : Bezier P (N - 1)) hN1 s
    rw [hq] at hv
    cases hv
    rw [hq']
    congr 1
    apply point_ext; intro i
    rw [hc', coord_mul, hc, bezierCoord, bezierCoord, Finset.sum_mul]
    refine Finset.sum_congr rfl fun k _ => ?_
    simp only [Bezier.controlPoints, coord_mul]
    ring
  -- the chain rule for a part `c u = b (a + x u)`
  have chain : ∀ (c : Bezier P N) (e e' : Bezier P (N - 1)) (a x : ℝ),
      Bezier.derivative (S := ℝ) c = some e → (∀ u : ℝ, c.eval u = b.eval (a + x * u)) →
      (∀ u : ℝ, e'.eval u = d.eval (a + x * u)) →
      e = ⟨fun k => e'.control_points k * x⟩ := by
    intro c e e' a x he hcb hed
    refine bezier_ext fun _ s => ?_
    obtain ⟨f, v, hf, hv, hfv⟩ := der (dc := c) he s
    obtain ⟨g, w, hg, hw, hgw⟩ := der (dc := c) hd (a + x * s)
    rw [← hed] at hw
    rw [hv, scaled e' x s w hw]
    congr 1
    apply point_ext
    intro i
    by_cases hi : i < Point.dim P
    · have e1 := hfv i hi
      have e2 : HasDerivAt (fun u => a + x * u) x s := by
        simpa using ((hasDerivAt_id s).const_mul x).const_add a
      have e3 := (hgw i hi).comp s e2
      have e4 : (fun u => coord (f u) i) = (fun u => coord (g u) i) ∘ fun u => a + x * u := by
        funext u
        have := hcb u
        rw [hf, hg] at this
        rw [Function.comp, Option.some.inj this]
      rw [e4] at e1
      rw [coord_mul]
      exact e1.unique e3
    · rw [coord_mul, coord_out _ hi, coord_out _ hi, zero_mul]
  refine ⟨l, r, d, dl, dr, dl', dr', h, hd, hdl, hdr, h', fun k => ?_, fun k => ?_⟩
  · rw [chain l dl dl' 0 t hdl (fun u => by rw [(hlr (by omega) u).1, zero_add])
      (fun u => by rw [(hlr' hN1 u).1, zero_add])]
  · rw [chain r dr dr' t (1 - t) hdr (fun u => (hlr (by omega) u).2) fun u => (hlr' hN1 u).2]

/-- **C102** for quadratic curves. -/
theorem C102_quadratic (q : QuadraticBezier P) (t s : ℝ) :
    ((q.split t).1.split s).1 = (q.split (t * s)).1 ∧
    ((q.split t).2.split s).2 = (q.split (t + (1 - t) * s)).2 ∧
    (t * s ≠ 1 → ((q.split t).1.split s).2
      = ((q.split (t * s)).2.split ((t - t * s) / (1 - t * s))).1) ∧
    (t ≠ 0 → ((q.split t).1.split (1 / t)).1 = q) ∧
    (t ≠ 1 → ((q.split t).2.split (-t / (1 - t))).2 = q) := by
  have ext : ∀ {a b : QuadraticBezier P}, (∀ u : ℝ, a.eval u = b.eval u) → a = b := by
    intro a b h
    have h' := bezier_ext (b := Bezier.new ![a.start, a.ctrl, a.end_])
      (b' := Bezier.new ![b.start, b.ctrl, b.end_]) fun _ u => by
        rw [C32_quadratic_eval, C32_quadratic_eval]
        exact congrArg some (h u)
    have e := congrArg Bezier.control_points h'
    have e0 := congrFun e 0
    have e1 := congrFun e 1
    have e2 := congrFun e 2
    cases a; cases b
    simp [Bezier.new] at e0 e1 e2
    rw [e0, e1, e2]
  refine ⟨ext fun u => ?_, ext fun u => ?_, fun hne => ext fun u => ?_, fun h0 => ext fun u => ?_,
    fun h1 => ext fun u => ?_⟩
  · rw [(C11_split _ _ _).1, (C11_split _ _ _).1, (C11_split _ _ _).1, mul_assoc]
  · rw [(C11_split _ _ _).2, (C11_split _ _ _).2, (C11_split _ _ _).2]
    congr 1; ring
  · have : 1 - t * s ≠ 0 := fun e => hne (by linarith)
    rw [(C11_split _ _ _).2, (C11_split _ _ _).1, (C11_split _ _ _).1, (C11_split _ _ _).2]
    congr 1; field_simp
  · rw [(C11_split _ _ _).1, (C11_split _ _ _).1]
    congr 1; field_simp
  · have : 1 - t ≠ 0 := fun e => h1 (by linarith)
    rw [(C11_split _ _ _).2, (C11_split _ _ _).2]
    congr 1; field_simp; ring

/-- **C102** for cubic curves. -/
theorem C102_cubic (c : CubicBezier P) (t s : ℝ) :
    ((c.split t).1.split s).1 = (c.split (t * s)).1 ∧
    ((c.split t).2.split s).2 = (c.split (t + (1 - t) * s)).2 ∧
    (t * s ≠ 1 → ((c.split t).1.split s).2
      = ((c.split (t * s)).2.split ((t - t * s) / (1 - t * s))).1) ∧
    (t ≠ 0 → ((c.split t).1.split (1 / t)).1 = c) ∧
    (t ≠ 1 → ((c.split t).2.split (-t / (1 - t))).2 = c) := by
  have ext : ∀ {a b : CubicBezier P}, (∀ u : ℝ, a.eval u = b.eval u) → a = b := by
    intro a b h
    have h' := bezier_ext (b := Bezier.new ![a.start, a.ctrl1, a.ctrl2, a.end_])
      (b' := Bezier.new ![b.start, b.ctrl1, b.ctrl2, b.end_]) fun _ u => by
        rw [C32_cubic_eval, C32_cubic_eval]
        exact congrArg some (h u)
    have e := congrArg Bezier.control_points h'
    have e0 := congrFun e 0
    have e1 := congrFun e 1
    have e2 := congrFun e 2
    have e3 := congrFun e 3
    cases a; cases b
    simp [Bezier.new] at e0 e1 e2 e3
    rw [e0, e1, e2, e3]
  refine ⟨ext fun u => ?_, ext fun u => ?_, fun hne => ext fun u => ?_, fun h0 => ext fun u => ?_,
    fun h1 => ext fun u => ?_⟩
  · rw [(C21_split _ _ _).1, (C21_split _ _ _).1, (C21_split _ _ _).1, mul_assoc]
  · rw [(C21_split _ _ _).2, (C21_split _ _ _).2, (C21_split _ _ _).2]
    congr 1; ring
  · have : 1 - t * s ≠ 0 := fun e => hne (by linarith)
    rw [(C21_split _ _ _).2, (C21_split _ _ _).1, (C21_split _ _ _).1, (C21_split _ _ _).2]
    congr 1; field_simp
  · rw [(C21_split _ _ _).1, (C21_split _ _ _).1]
    congr 1; field_simp
  · have : 1 - t ≠ 0 := fun e => h1 (by linarith)
    rw [(C21_split _ _ _).2, (C21_split _ _ _).2]
    congr 1; field_simp; ring

/-- Test: the middle third of a cubic curve, cut out in either order. -/
example (c : CubicBezier (PointN ℝ 2)) :
    ((c.split (2 / 3 : ℝ)).1.split (1 / 2 : ℝ)).2 = ((c.split (1 / 3 : ℝ)).2.split (1 / 2 : ℝ)).1 := by
  have h := (C102_cubic c (2 / 3) (1 / 2)).2.2.1 (by norm_num)
  norm_num at h ⊢
  exact h

end Stroke
