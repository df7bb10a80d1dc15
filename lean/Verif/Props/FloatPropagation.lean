import Verif.Props.FloatBox
import Verif.Lemmas.Casteljau
import Verif.Lemmas.Ieee

/-!
# NaN and infinities are never hidden by evaluation (C74, C75)
-/

set_option linter.unusedSectionVars false

namespace Stroke

variable {F : FloatFormat} {n : ℕ}

open Fl

/-- A property of floats that the operands of `+`, `-`, `*` inherit from the result. -/
structure Reflects (Q : Fl F → Prop) : Prop where
  add : ∀ x y : Fl F, Q (x + y) → Q x ∧ Q y
  mul : ∀ x y : Fl F, Q (x * y) → Q x ∧ Q y
  neg : ∀ x : Fl F, Q (-x) → Q x

namespace Reflects

theorem sub {Q : Fl F → Prop} (h : Reflects Q) (x y : Fl F) (hq : Q (x - y)) : Q x ∧ Q y :=
  ⟨(h.add x (-y) hq).1, h.neg y (h.add x (-y) hq).2⟩

theorem lerp {Q : Fl F → Prop} (h : Reflects Q) {x y t : Fl F} (hq : Q (x + (y - x) * t)) :
    Q x ∧ Q y ∧ Q t := by
  obtain ⟨h1, h2⟩ := h.add _ _ hq
  obtain ⟨h3, h4⟩ := h.mul _ _ h2
  exact ⟨h1, (h.sub _ _ h3).1, h4⟩

theorem finite : Reflects (F := F) IsFinite where
  add x y h := by
    cases x <;> cases y <;> simp_all [HAdd.hAdd, Add.add, Fl.add, IsFinite]
    rename_i a b
    by_cases hab : a = b <;> simp [hab] at h
  mul x y h := by
    cases x <;> cases y <;> simp_all [HMul.hMul, Mul.mul, Fl.mul, IsFinite]
    · rename_i b _
      by_cases hb : b = 0 <;> simp [hb] at h
    · rename_i b _ _
      by_cases hb : b = 0 <;> simp [hb] at h
  neg x h := by
    cases x <;> simp_all [Neg.neg, Fl.neg, IsFinite]

theorem notNaN : Reflects (F := F) (· ≠ nan) where
  add x y h := ⟨fun e => h (by rw [e]; rfl), fun e => h (by rw [e, add_nan])⟩
  mul x y h := ⟨fun e => h (by rw [e]; rfl), fun e => h (by rw [e, mul_nan])⟩
  neg x h := fun e => h (by rw [e]; rfl)

theorem quadratic_eval {Q : Fl F → Prop} (h : Reflects Q) (q : QuadraticBezier (PointN (Fl F) n))
    (t : Fl F) (i : Fin n) (hq : Q ((q.eval t).coords i)) :
    Q (q.start.coords i) ∧ Q (q.ctrl.coords i) ∧ Q (q.end_.coords i) ∧ Q t := by
  simp only [QuadraticBezier.eval, coords_add, coords_mul] at hq
  obtain ⟨h1, h2⟩ := h.add _ _ hq
  obtain ⟨h3, h4⟩ := h.add _ _ h1
  obtain ⟨h5, _⟩ := h.mul _ _ h3
  obtain ⟨h6, h7⟩ := h.mul _ _ h4
  obtain ⟨h8, _⟩ := h.mul _ _ h6
  exact ⟨h5, (h.mul _ _ h8).1, (h.mul _ _ h2).1, h7⟩

theorem quadratic_casteljau {Q : Fl F → Prop} (h : Reflects Q)
    (q : QuadraticBezier (PointN (Fl F) n)) (t : Fl F) (i : Fin n)
    (hq : Q ((q.evalCasteljau t).coords i)) :
    Q (q.start.coords i) ∧ Q (q.ctrl.coords i) ∧ Q (q.end_.coords i) ∧ Q t := by
  simp only [QuadraticBezier.evalCasteljau, coords_add, coords_mul, coords_sub] at hq
  obtain ⟨h1, h2, h3⟩ := h.lerp hq
  obtain ⟨h4, h5, _⟩ := h.lerp h1
  obtain ⟨_, h6, _⟩ := h.lerp h2
  exact ⟨h4, h5, h6, h3⟩

theorem cubic_eval {Q : Fl F → Prop} (h : Reflects Q) (c : CubicBezier (PointN (Fl F) n))
    (t : Fl F) (i : Fin n) (hq : Q ((c.eval t).coords i)) :
    Q (c.start.coords i) ∧ Q (c.ctrl1.coords i) ∧ Q (c.ctrl2.coords i) ∧ Q (c.end_.coords i)
      ∧ Q t := by
  simp only [CubicBezier.eval, coords_add, coords_mul] at hq
  obtain ⟨h1, h2⟩ := h.add _ _ hq
  obtain ⟨h3, h4⟩ := h.add _ _ h1
  obtain ⟨h5, h6⟩ := h.add _ _ h3
  obtain ⟨h7, h8⟩ := h.mul _ _ h2
  exact ⟨(h.mul _ _ h5).1, (h.mul _ _ h6).1, (h.mul _ _ h4).1, h7, (h.mul _ _ h8).2⟩

theorem cubic_casteljau {Q : Fl F → Prop} (h : Reflects Q) (c : CubicBezier (PointN (Fl F) n))
    (t : Fl F) (i : Fin n) (hq : Q ((c.evalCasteljau t).coords i)) :
    Q (c.start.coords i) ∧ Q (c.ctrl1.coords i) ∧ Q (c.ctrl2.coords i) ∧ Q (c.end_.coords i)
      ∧ Q t := by
  simp only [CubicBezier.evalCasteljau, coords_add, coords_mul, coords_sub] at hq
  obtain ⟨h1, h2, h3⟩ := h.lerp hq
  obtain ⟨h4, h5, _⟩ := h.lerp h1
  obtain ⟨_, h6, _⟩ := h.lerp h2
  obtain ⟨h7, h8, _⟩ := h.lerp h4
  obtain ⟨h9, h10, _⟩ := h.lerp h6
  exact ⟨h7, h8, h9, h10, h3⟩

theorem cas {Q : Fl F → Prop} (h : Reflects Q) (x : ℕ → PointN (Fl F) n) (t : Fl F) (i : Fin n)
    (m : ℕ) : ∀ j, Q ((Stroke.cas x t m j).coords i) →
      (∀ k, k ≤ m → Q ((x (j + k)).coords i)) ∧ (1 ≤ m → Q t) := by
  induction m with
  | zero =>
    intro j hq
    refine ⟨fun k hk => ?_, fun h => absurd h (by omega)⟩
    obtain rfl : k = 0 := by omega
    exact hq
  | succ m ih =>
    intro j hq
    change Q ((Stroke.cas x t m j * (-t + lit 1) + Stroke.cas x t m (j + 1) * t).coords i) at hq
    simp only [coords_add, coords_mul] at hq
    obtain ⟨h1, h2⟩ := h.add _ _ hq
    obtain ⟨h3, h4⟩ := h.mul _ _ h1
    obtain ⟨h5, h6⟩ := h.mul _ _ h2
    refine ⟨fun k hk => ?_, fun _ => h6⟩
    rcases Nat.lt_or_ge m k with hk' | hk'
    · obtain rfl : k = m + 1 := by omega
      have := (ih (j + 1) h5).1 m le_rfl
      rwa [show j + 1 + m = j + (m + 1) by omega] at this
    · exact (ih j h3).1 k hk'

theorem bezier_eval {Q : Fl F → Prop} (h : Reflects Q) {N : ℕ} (b : Bezier (PointN (Fl F) n) N)
    (t : Fl F) {p : PointN (Fl F) n} (hp : b.eval t = some p) (i : Fin n)
    (hq : Q (p.coords i)) :
    (∀ k, Q ((b.control_points k).coords i)) ∧ (2 ≤ N → Q t) := by
  rcases Nat.eq_zero_or_pos N with rfl | hN
  · rw [bezier_eval_zero] at hp
    cases hp
  rw [bezier_eval_cas b hN, Option.some.injEq] at hp
  rw [← hp] at hq
  obtain ⟨h1, h2⟩ := h.cas _ _ _ _ _ hq
  refine ⟨fun k => ?_, fun hN2 => h2 (by omega)⟩
  have := h1 k.val (by omega)
  rwa [Nat.zero_add, extend_lt _ k.isLt] at this

theorem squaredLength {Q : Fl F → Prop} (h : Reflects Q) (p : PointN (Fl F) n)
    (hq : Q (Point.squaredLength p)) (i : Fin n) : Q (p.coords i) := by
  have key : ∀ (l : List (Fin n)) (s : Fl F),
      Q (l.foldl (fun sqr_dist i => sqr_dist + p.coords i * p.coords i) s) →
      Q s ∧ ∀ i ∈ l, Q (p.coords i) := by
    intro l
    induction l with
    | nil => exact fun s hs => ⟨hs, by simp⟩
    | cons a l ih =>
      intro s hs
      obtain ⟨h1, h2⟩ := ih _ hs
      obtain ⟨h3, h4⟩ := h.add _ _ h1
      refine ⟨h3, fun j hj => ?_⟩
      rcases List.mem_cons.1 hj with rfl | hj
      · exact (h.mul _ _ h4).1
      · exact h2 j hj
  exact (key _ _ hq).2 i (List.mem_finRange i)

end Reflects

/-! ### Evaluation (C74) -/

/-- **C74** (line segments): if a coordinate of a computed point is an ordinary number, then so
are the parameter and that coordinate of both ends; if it is not NaN, neither are those. -/
theorem C74_line (l : LineSegment (PointN (Fl F) n)) (t : Fl F) (i : Fin n) :
    (((l.eval t).coords i).IsFinite →
      (l.start.coords i).IsFinite ∧ (l.end_.coords i).IsFinite ∧ t.IsFinite) ∧
    ((l.eval t).coords i ≠ nan →
      l.start.coords i ≠ nan ∧ l.end_.coords i ≠ nan ∧ t ≠ nan) :=
  ⟨fun h => Reflects.finite.lerp h, fun h => Reflects.notNaN.lerp h⟩

/-- **C74** (quadratic curves), for both evaluation methods. -/
theorem C74_quadratic (q : QuadraticBezier (PointN (Fl F) n)) (t : Fl F) (i : Fin n) :
    (((q.eval t).coords i).IsFinite ∨ ((q.evalCasteljau t).coords i).IsFinite →
      (q.start.coords i).IsFinite ∧ (q.ctrl.coords i).IsFinite ∧ (q.end_.coords i).IsFinite
        ∧ t.IsFinite) ∧
    ((q.eval t).coords i ≠ nan ∨ (q.evalCasteljau t).coords i ≠ nan →
      q.start.coords i ≠ nan ∧ q.ctrl.coords i ≠ nan ∧ q.end_.coords i ≠ nan ∧ t ≠ nan) := by
  refine ⟨fun h => h.elim ?_ ?_, fun h => h.elim ?_ ?_⟩
  · exact Reflects.finite.quadratic_eval q t i
  · exact Reflects.finite.quadratic_casteljau q t i
  · exact Reflects.notNaN.quadratic_eval q t i
  · exact Reflects.notNaN.quadratic_casteljau q t i

/-- **C74** (cubic curves), for both evaluation methods. -/
theorem C74_cubic (c : CubicBezier (PointN (Fl F) n)) (t : Fl F) (i : Fin n) :
    (((c.eval t).coords i).IsFinite ∨ ((c.evalCasteljau t).coords i).IsFinite →
      (c.start.coords i).IsFinite ∧ (c.ctrl1.coords i).IsFinite ∧ (c.ctrl2.coords i).IsFinite
        ∧ (c.end_.coords i).IsFinite ∧ t.IsFinite) ∧
    ((c.eval t).coords i ≠ nan ∨ (c.evalCasteljau t).coords i ≠ nan →
      c.start.coords i ≠ nan ∧ c.ctrl1.coords i ≠ nan ∧ c.ctrl2.coords i ≠ nan
        ∧ c.end_.coords i ≠ nan ∧ t ≠ nan) := by
  refine ⟨fun h => h.elim ?_ ?_, fun h => h.elim ?_ ?_⟩
  · exact Reflects.finite.cubic_eval c t i
  · exact Reflects.finite.cubic_casteljau c t i
  · exact Reflects.notNaN.cubic_eval c t i
  · exact Reflects.notNaN.cubic_casteljau c t i

/-- **C74** (curves of any degree).  A curve with one control point does not use the
parameter. -/
theorem C74_bezier {N : ℕ} (b : Bezier (PointN (Fl F) n) N) (t : Fl F) {p : PointN (Fl F) n}
    (hp : b.eval t = some p) (i : Fin n) :
    ((p.coords i).IsFinite →
      (∀ k, ((b.control_points k).coords i).IsFinite) ∧ (2 ≤ N → t.IsFinite)) ∧
    (p.coords i ≠ nan →
      (∀ k, (b.control_points k).coords i ≠ nan) ∧ (2 ≤ N → t ≠ nan)) :=
  ⟨Reflects.finite.bezier_eval b t hp i, Reflects.notNaN.bezier_eval b t hp i⟩

/-- **C74** (`squared_length`). -/
theorem C74_squared_length (p : PointN (Fl F) n) :
    ((Point.squaredLength p : Fl F).IsFinite → ∀ i, (p.coords i).IsFinite) ∧
    ((Point.squaredLength p : Fl F) ≠ nan → ∀ i, p.coords i ≠ nan) :=
  ⟨Reflects.finite.squaredLength p, Reflects.notNaN.squaredLength p⟩

/-- Test: a curve with a finite computed point, so that the claim is not vacuous. -/
example : ((QuadraticBezier.new ⟨fun _ => lit 0⟩ ⟨fun _ => lit 1⟩ ⟨fun _ => lit 1⟩ :
    QuadraticBezier (PointN (Fl F) 1)).eval (lit 1)).coords 0 = lit 1 := by
  simp only [QuadraticBezier.eval, QuadraticBezier.new, coords_add, coords_mul, one_sub_one,
    mul_litOne isFinite_one, mul_litZero isFinite_zero]
  rw [mul_litZero (show ((lit 1 : Fl F) * lit 2).IsFinite by
    rw [litOne_mul] <;> exact_mod_cast isFinite_lit 2 (by norm_num)), mul_litOne isFinite_zero,
    litZero_add isFinite_zero, litZero_add isFinite_one]

/-! ### Distances (C75) -/

/-- A search whose samples never come out below the starting value returns the starting value. -/
theorem searchDistance_stuck {S P : Type} [Scalar S] [Point S P] {eval : S → Option P}
    {first point : P}
    (h : ∀ t, ∃ p, eval t = some p ∧ Scalar.lt (Point.squaredLength (p - point))
      (Point.squaredLength (point - first)) = false) :
    searchDistance eval first point
      = some (Scalar.sqrt (Point.squaredLength (point - first))) := by
  have fixed : ∀ (lo hi : ℕ) (s : S × S) (body : ℕ → S × S → Option (S × S)),
      (∀ i, body i s = some s) → forRange lo hi s body = some s := by
    intro lo hi s body hb
    unfold forRange
    generalize List.range' lo (hi - lo) = l
    induction l with
    | nil => rfl
    | cons a l ih =>
      rw [List.foldlM_cons, hb]
      exact ih
  have step : ∀ x t : S, ((eval t).bind fun candidate =>
      if Scalar.lt (Point.squaredLength (candidate - point))
          (Point.squaredLength (point - first)) = true
      then some (x, Point.squaredLength (candidate - point))
      else some ((lit (1 / 2), Point.squaredLength (point - first)) : S × S))
      = some (lit (1 / 2), Point.squaredLength (point - first)) := by
    intro x t
    obtain ⟨p, hp, hl⟩ := h t
    rw [hp, Option.bind_some, hl]
    rfl
  unfold searchDistance coarsePass finePass
  simp only [Option.bind_eq_bind, Option.pure_def]
  rw [fixed _ _ _ _ (fun i => step _ _), Option.bind_some]
  rw [fixed _ _ _ _ (fun i => step _ _), Option.bind_some]

theorem lt_nan_left (y : Fl F) : Scalar.lt (nan : Fl F) y = false := rfl

theorem lt_nan_right (x : Fl F) : Scalar.lt x (nan : Fl F) = false := by
  cases x with
  | inf s => cases s <;> rfl
  | _ => rfl

theorem squaredLength_nan {p : PointN (Fl F) n} {i : Fin n} (h : p.coords i = nan) :
    (Point.squaredLength p : Fl F) = nan := by
  by_contra hc
  exact Reflects.notNaN.squaredLength p hc i h

theorem sub_coords_nan {p q : PointN (Fl F) n} {i : Fin n}
    (h : p.coords i = nan ∨ q.coords i = nan) : (p - q).coords i = nan := by
  rw [coords_sub]
  rcases h with h | h <;> rw [h]
  · exact nan_sub _
  · exact sub_nan _

/-- NaN in the query point or in the first control point: the search returns NaN. -/
theorem searchDistance_nan {eval : Fl F → Option (PointN (Fl F) n)} {first point : PointN (Fl F) n}
    (he : ∀ t, ∃ p, eval t = some p) {i : Fin n}
    (h : point.coords i = nan ∨ first.coords i = nan) :
    searchDistance eval first point = some nan := by
  have h0 : (Point.squaredLength (point - first) : Fl F) = nan :=
    squaredLength_nan (sub_coords_nan h)
  rw [searchDistance_stuck, h0]
  · rfl
  · intro t
    obtain ⟨p, hp⟩ := he t
    exact ⟨p, hp, by rw [h0]; exact lt_nan_right _⟩

/-- **C75** (line segments): a NaN coordinate of the segment or of the query point makes the
distance NaN. -/
theorem C75_line (l : LineSegment (PointN (Fl F) n)) (p : PointN (Fl F) n) (i : Fin n)
    (h : l.start.coords i = nan ∨ l.end_.coords i = nan ∨ p.coords i = nan) :
    l.distanceToPoint p = some (nan : Fl F) := by
  have hdot : ∀ v1 v2 : PointN (Fl F) n, ∃ d : Fl F, LineSegment.dotLoop v1 v2 = some d ∧
      ((∃ j, v1.coords j = nan ∨ v2.coords j = nan) → d = nan) := by
    intro v1 v2
    obtain ⟨d, hd, hi⟩ := forRange_inv (m := Option)
      (fun i (s : Fl F) => ∀ j : Fin n, j.val < i → (v1.coords j = nan ∨ v2.coords j = nan) →
        s = nan)
      (lo := 0) (hi := n) (s := (lit 0 : Fl F))
      (body := fun i dot => do
        let a ← Point.axis v1 i
        let b ← Point.axis v2 i
        pure (dot + a * b))
      (Nat.zero_le n) (fun j hj => absurd hj (Nat.not_lt_zero _)) (by
        intro k s _ hk inv
        refine ⟨s + v1.coords ⟨k, hk⟩ * v2.coords ⟨k, hk⟩, ?_, ?_⟩
        · rw [axis_pointN hk, axis_pointN hk]
          rfl
        · intro j hj hn
          rcases Nat.lt_or_ge j.val k with hjk | hjk
          · rw [inv j hjk hn]
            rfl
          · obtain rfl : j = ⟨k, hk⟩ := Fin.ext (by simp; omega)
            rcases hn with hn | hn <;> rw [hn]
            · rw [nan_mul, add_nan]
            · rw [mul_nan, add_nan])
    refine ⟨d, ?_, fun ⟨j, hj⟩ => hi j j.isLt hj⟩
    unfold LineSegment.dotLoop
    have hlen : (Point.iter v1).length = n := by
      show v1.coords.toList.length = n
      simp [Arr.toList]
    rw [hlen]
    exact hd
  unfold LineSegment.distanceToPoint
  simp only []
  obtain ⟨d, hd, hn⟩ := hdot (p - l.start) (l.end_ - l.start)
  by_cases hse : l.start.coords i = nan ∨ l.end_.coords i = nan
  · have h2 : (l.end_ - l.start).coords i = nan := sub_coords_nan hse.symm
    have e2 : (Point.squaredLength (l.end_ - l.start) : Fl F) = nan := squaredLength_nan h2
    rw [e2, lt_nan_left, hd]
    simp only [Bool.false_eq_true, if_false, Option.bind_eq_bind, Option.bind_some, Option.pure_def,
      div_nan, lt_nan_left]
    rw [squaredLength_nan (i := i)]
    · rfl
    · refine sub_coords_nan (Or.inr ?_)
      rw [coords_add, coords_mul, h2, nan_mul, add_nan]
  · have hp : p.coords i = nan := by tauto
    split
    · rw [squaredLength_nan (i := i) (sub_coords_nan (Or.inr hp))]
      rfl
    · rw [hd]
      simp only [Option.bind_eq_bind, Option.bind_some, Option.pure_def]
      rw [squaredLength_nan (i := i) (sub_coords_nan (Or.inl hp))]
      rfl

/-- **C75** (curves; the part that holds): a NaN coordinate of the query point or of the first
control point makes the distance NaN.  Missing for the full claim: the other control points
(`C75_false`). -/
theorem C75_partial (p : PointN (Fl F) n) (i : Fin n) :
    (∀ q : QuadraticBezier (PointN (Fl F) n), p.coords i = nan ∨ q.start.coords i = nan →
      q.distanceToPoint p = some (nan : Fl F)) ∧
    (∀ c : CubicBezier (PointN (Fl F) n), p.coords i = nan ∨ c.start.coords i = nan →
      c.distanceToPoint p = some (nan : Fl F)) ∧
    (∀ (N : ℕ) (b : Bezier (PointN (Fl F) n) (N + 1)),
      p.coords i = nan ∨ (b.control_points 0).coords i = nan →
      b.distanceToPoint p = some (nan : Fl F)) := by
  refine ⟨fun q h => ?_, fun c h => ?_, fun N b h => ?_⟩
  · rw [quadratic_distance_eq]
    exact searchDistance_nan (fun t => ⟨_, rfl⟩) h
  · rw [cubic_distance_eq]
    exact searchDistance_nan (fun t => ⟨_, rfl⟩) h
  · rw [bezier_distance_eq, Arr.get?_lt _ (by omega), Option.bind_some]
    exact searchDistance_nan (fun t => ⟨_, bezier_eval_cas b (by omega) t⟩) h

/-- **C75** is false of the code for the other control points: with a NaN coordinate there, every
curve's `distance_to_point` silently returns the computed distance to the start point. -/
theorem C75_false (p : PointN (Fl F) n) (i : Fin n) :
    (∀ q : QuadraticBezier (PointN (Fl F) n), q.ctrl.coords i = nan ∨ q.end_.coords i = nan →
      q.distanceToPoint p = some (Scalar.sqrt (Point.squaredLength (p - q.start)))) ∧
    (∀ c : CubicBezier (PointN (Fl F) n),
      c.ctrl1.coords i = nan ∨ c.ctrl2.coords i = nan ∨ c.end_.coords i = nan →
      c.distanceToPoint p = some (Scalar.sqrt (Point.squaredLength (p - c.start)))) ∧
    (∀ (N : ℕ) (b : Bezier (PointN (Fl F) n) (N + 1)) (k : Fin (N + 1)),
      (b.control_points k).coords i = nan →
      b.distanceToPoint p
        = some (Scalar.sqrt (Point.squaredLength (p - b.control_points 0)))) := by
  refine ⟨fun q h => ?_, fun c h => ?_, fun N b k h => ?_⟩
  · rw [quadratic_distance_eq]
    refine searchDistance_stuck fun t => ⟨_, rfl, ?_⟩
    rw [squaredLength_nan (i := i) (sub_coords_nan (Or.inl ?_)), lt_nan_left]
    by_contra hc
    have := (C74_quadratic q t i).2 (Or.inl hc)
    tauto
  · rw [cubic_distance_eq]
    refine searchDistance_stuck fun t => ⟨_, rfl, ?_⟩
    rw [squaredLength_nan (i := i) (sub_coords_nan (Or.inl ?_)), lt_nan_left]
    by_contra hc
    have := (C74_cubic c t i).2 (Or.inl hc)
    tauto
  · rw [bezier_distance_eq, Arr.get?_lt _ (by omega), Option.bind_some]
    refine searchDistance_stuck fun t => ⟨_, bezier_eval_cas b (by omega) t, ?_⟩
    rw [squaredLength_nan (i := i) (sub_coords_nan (Or.inl ?_)), lt_nan_left]
    by_contra hc
    exact ((C74_bezier b t (bezier_eval_cas b (by omega) t) i).2 hc).1 k h

/-- Test: `C75_false` on a concrete curve: the control point is NaN, and the reported distance
is 0. -/
example : (QuadraticBezier.new ⟨fun _ => lit 0⟩ ⟨fun _ => nan⟩ ⟨fun _ => lit 1⟩ :
    QuadraticBezier (PointN (Fl F) 1)).distanceToPoint ⟨fun _ => lit 0⟩ = some (lit 0 : Fl F) := by
  rw [(C75_false _ 0).1 _ (Or.inl rfl)]
  have h1 : (Point.squaredLength ((⟨fun _ => lit 0⟩ : PointN (Fl F) 1)
      - (QuadraticBezier.new ⟨fun _ => lit 0⟩ ⟨fun _ => nan⟩ ⟨fun _ => lit 1⟩ :
        QuadraticBezier (PointN (Fl F) 1)).start) : Fl F) = lit 0 := by
    show lit 0 + ((lit 0 : Fl F) - lit 0) * (lit 0 - lit 0) = lit 0
    rw [lit_zero, fin_sub, sub_zero, F.round_of_mem F.zero_ok, fin_mul, mul_zero,
      F.round_of_mem F.zero_ok, fin_add, add_zero, F.round_of_mem F.zero_ok]
  rw [h1, lit_zero]
  show some (Fl.sqrt (fin 0 F.zero_ok)) = _
  simp only [Fl.sqrt, lt_irrefl, if_false, Real.sqrt_zero]
  rw [F.round_of_mem F.zero_ok]

end Stroke
