import Verif.Lemmas.Casteljau
import Verif.Lemmas.Sampling
import Verif.Lemmas.Ieee
import Verif.Props.Bezier

/-!
# Panics do not depend on the numbers (C87)

For every scalar type whatsoever (floats with NaN and infinities, any rounding, any comparison)
the methods of the curve types panic only because of sizes and indices; `bounding_box` of
quadratic and cubic curves panics in addition only when it compares two incomparable numbers.
-/

set_option linter.unusedSectionVars false

namespace Stroke

variable {S : Type} [Scalar S] {n : ℕ}

/-- A loop whose body never panics does not panic. -/
theorem forRange_isSome {σ : Type} (lo hi : ℕ) (s : σ) (body : ℕ → σ → Option σ)
    (h : ∀ i s, lo ≤ i → i < hi → (body i s).isSome) : (forRange lo hi s body).isSome := by
  rcases Nat.lt_or_ge hi lo with hlt | hle
  · rw [forRange_empty hlt.le]; rfl
  · obtain ⟨s', hs', -⟩ := forRange_inv (m := Option) (fun _ _ => True) (s := s) (body := body) hle
      trivial (fun i s h1 h2 _ => by
        obtain ⟨s', hs'⟩ := Option.isSome_iff_exists.1 (h i s h1 h2)
        exact ⟨s', hs', trivial⟩)
    rw [hs']; rfl

theorem axis_some_pn (p : PointN S n) {i : ℕ} (hi : i < n) :
    Point.axis p i = some (p.coords ⟨i, hi⟩) := by
  show PointN.axis p i = _
  unfold PointN.axis
  rw [if_pos hi.le, Arr.get?_lt _ hi]

theorem axis_none_pn (p : PointN S n) {i : ℕ} (hi : n ≤ i) : Point.axis p i = none := by
  show PointN.axis p i = _
  unfold PointN.axis
  rw [Arr.get?_ge _ hi, ite_self]

theorem iter_length_pn (p : PointN S n) : (Point.iter p).length = n := by
  show (List.ofFn p.coords).length = n
  simp

theorem isSome_bind_of {α β : Type} {x : Option α} {f : α → Option β} (hx : x.isSome)
    (hf : ∀ a, (f a).isSome) : (x.bind f).isSome := by
  obtain ⟨a, rfl⟩ := Option.isSome_iff_exists.1 hx
  exact hf a

theorem line_distance_isSome (l : LineSegment (PointN S n)) (p : PointN S n) :
    (l.distanceToPoint p).isSome := by
  unfold LineSegment.distanceToPoint
  simp only
  split_ifs
  · rfl
  · refine isSome_bind_of ?_ (fun _ => rfl)
    unfold LineSegment.dotLoop
    apply forRange_isSome
    intro i s _ hi
    rw [iter_length_pn] at hi
    rw [axis_some_pn _ hi, axis_some_pn _ hi]
    rfl

theorem quad_colinear_isSome (q : QuadraticBezier (PointN S n)) (tol : S) :
    (q.arePointsColinear tol).isSome :=
  isSome_bind_of (line_distance_isSome _ _) fun _ => rfl

theorem cubic_colinear_isSome (c : CubicBezier (PointN S n)) (tol : S) :
    (c.arePointsColinear tol).isSome := by
  unfold CubicBezier.arePointsColinear
  refine isSome_bind_of (line_distance_isSome _ _) fun d => ?_
  split_ifs
  · exact isSome_bind_of (line_distance_isSome _ _) fun _ => rfl
  · rfl

theorem avPush_ok {α : Type} {cap : ℕ} {l : List α} (x : α) (h : l.length < cap) :
    avPush cap l x = some (l ++ [x]) := by unfold avPush; rw [if_pos h]

theorem avExtend_ok {α : Type} {cap : ℕ} (xs : List α) : ∀ (l : List α),
    l.length + xs.length ≤ cap → avExtend cap l xs = some (l ++ xs) := by
  unfold avExtend
  induction xs with
  | nil => intro l _; simp
  | cons x xs ih =>
    intro l h
    rw [List.length_cons] at h
    rw [List.foldlM_cons, avPush_ok x (by omega)]
    have := ih (l ++ [x]) (by simp; omega)
    simpa using this

theorem quad_roots_some (q : QuadraticBezier (PointN S n)) (a b c : S) :
    ∃ rs, q.realRoots a b c = some rs ∧ rs.length ≤ 2 := by
  unfold QuadraticBezier.realRoots
  simp only [avPush, List.length_nil, List.nil_append, List.length_singleton, Option.bind_eq_bind,
    Option.pure_def, show (0 : ℕ) < 2 by omega, show (1 : ℕ) < 2 by omega, if_true,
    Option.bind_some]
  split_ifs <;> exact ⟨_, rfl, by simp⟩

theorem rootsSquare_some (a b c : S) : ∃ rs, rootsSquare a b c = some rs ∧ rs.length ≤ 2 := by
  unfold rootsSquare
  simp only [avPush, List.length_nil, List.nil_append, List.length_singleton, Option.bind_eq_bind,
    Option.pure_def, show (0 : ℕ) < 2 by omega, show (1 : ℕ) < 2 by omega, if_true,
    Option.bind_some]
  split_ifs <;> exact ⟨_, rfl, by simp⟩

theorem rootsCubic_some (a b c d : S) : ∃ rs, rootsCubic a b c d = some rs ∧ rs.length ≤ 3 := by
  unfold rootsCubic
  simp only [avPush, List.length_nil, List.nil_append, List.length_singleton, Option.bind_eq_bind,
    Option.pure_def, show (0 : ℕ) < 3 by omega, show (1 : ℕ) < 3 by omega, if_true,
    Option.bind_some, List.length_append, List.cons_append, List.length_cons,
    show (1 + 1 : ℕ) < 3 by omega, show (0 + 1 + 1 : ℕ) < 3 by omega,
    show (0 + 1 : ℕ) < 3 by omega]
  split_ifs <;> exact ⟨_, rfl, by simp⟩

theorem cubic_roots_some (q : CubicBezier (PointN S n)) (a b c d : S) :
    ∃ rs, q.realRoots a b c d = some rs ∧ rs.length ≤ 3 := rootsCubic_some a b c d

/-- The loop which keeps the roots inside (0, 1). -/
theorem keep_some (l : List S) (hl : l.length ≤ 3) :
    l.foldlM (fun result root =>
      if Scalar.lt (lit 0) root && Scalar.lt root (lit 1) then avPush 3 result root
      else some result) []
      = some (l.filter fun r => Scalar.lt (lit 0) r && Scalar.lt r (lit 1)) := by
  have : ∀ (l acc : List S), acc.length + l.length ≤ 3 →
      l.foldlM (fun result root =>
        if Scalar.lt (lit 0) root && Scalar.lt root (lit 1) then avPush 3 result root
        else some result) acc
        = some (acc ++ l.filter fun r => Scalar.lt (lit 0) r && Scalar.lt r (lit 1)) := by
    intro l
    induction l with
    | nil => intro acc _; simp
    | cons x xs ih =>
      intro acc h
      simp only [List.length_cons] at h
      rw [List.foldlM_cons]
      by_cases hx : (Scalar.lt (lit 0) x && Scalar.lt x (lit 1)) = true
      · rw [if_pos hx, avPush_ok _ (by omega)]
        simp only [Option.bind_eq_bind, Option.bind_some]
        rw [ih _ (by simp; omega), List.filter_cons_of_pos (by exact hx)]
        simp
      · rw [if_neg hx]
        simp only [Option.bind_eq_bind, Option.bind_some]
        rw [ih _ (by omega), List.filter_cons_of_neg (by exact hx)]
  simpa using this l [] (by simpa using hl)

/-- What C87 says about `solve_t_for_axis`: at most three parameters, each of which passes the
comparisons `0 < t` and `t < 1`. -/
def SolvesInside (r : Option (List S)) : Prop :=
  ∃ ts, r = some ts ∧ ts.length ≤ 3 ∧
    ∀ t ∈ ts, Scalar.lt (lit 0) t = true ∧ Scalar.lt t (lit 1) = true

theorem solvesInside_keep {rs : List S} (hl : rs.length ≤ 3) :
    SolvesInside (some (rs.filter fun r => Scalar.lt (lit 0) r && Scalar.lt r (lit 1))) := by
  refine ⟨_, rfl, (List.length_filter_le _ _).trans hl, fun t ht => ?_⟩
  have := (List.mem_filter.1 ht).2
  rwa [Bool.and_eq_true] at this

theorem solvesInside_nil : SolvesInside (some ([] : List S)) := ⟨[], rfl, by simp, by simp⟩

/-- **C87**, `solve_t_for_axis`: in any arithmetic it returns at most three parameters, all
strictly between 0 and 1, for every axis of the dimension. -/
theorem C87_solve (q : QuadraticBezier (PointN S n)) (c : CubicBezier (PointN S n)) (v : S)
    {i : ℕ} (hi : i < n) :
    SolvesInside (q.solveTForAxis v i) ∧ SolvesInside (c.solveTForAxis v i) := by
  constructor
  · unfold QuadraticBezier.solveTForAxis
    obtain ⟨col, hcol⟩ := Option.isSome_iff_exists.1 (quad_colinear_isSome q (lit 0))
    rw [hcol]
    simp only [axis_some_pn _ hi, Option.bind_eq_bind, Option.bind_some, Option.pure_def]
    obtain ⟨rs, hrs, hl⟩ := quad_roots_some q
      (q.start.coords ⟨i, hi⟩ + q.ctrl.coords ⟨i, hi⟩ * lit (-2) + q.end_.coords ⟨i, hi⟩)
      (q.start.coords ⟨i, hi⟩ * lit (-2) + q.ctrl.coords ⟨i, hi⟩ * lit 2)
      (q.start.coords ⟨i, hi⟩ - v)
    rw [hrs]
    simp only [Option.bind_some, keep_some rs (by omega)]
    split_ifs <;> first | exact solvesInside_nil | exact solvesInside_keep (by omega)
  · unfold CubicBezier.solveTForAxis
    obtain ⟨col, hcol⟩ := Option.isSome_iff_exists.1 (cubic_colinear_isSome c Scalar.epsilon)
    rw [hcol]
    simp only [axis_some_pn _ hi, Option.bind_eq_bind, Option.bind_some, Option.pure_def]
    obtain ⟨rs, hrs, hl⟩ := cubic_roots_some c
      (-c.start.coords ⟨i, hi⟩ + c.ctrl1.coords ⟨i, hi⟩ * lit 3 - c.ctrl2.coords ⟨i, hi⟩ * lit 3
        + c.end_.coords ⟨i, hi⟩)
      (c.start.coords ⟨i, hi⟩ * lit 3 - c.ctrl1.coords ⟨i, hi⟩ * lit 6
        + c.ctrl2.coords ⟨i, hi⟩ * lit 3)
      (-c.start.coords ⟨i, hi⟩ * lit 3 + c.ctrl1.coords ⟨i, hi⟩ * lit 3)
      (c.start.coords ⟨i, hi⟩ - v)
    rw [hrs]
    simp only [Option.bind_some, keep_some rs hl]
    split_ifs <;> first | exact solvesInside_nil | exact solvesInside_keep hl

/-- **C87**, `axis` and `dd`: they panic exactly for an axis outside the dimension. -/
theorem C87_axis (l : LineSegment (PointN S n)) (q : QuadraticBezier (PointN S n))
    (c : CubicBezier (PointN S n)) (t : S) (i : ℕ) :
    ((l.axis t i).isSome ↔ i < n) ∧ ((q.axis t i).isSome ↔ i < n) ∧
    ((c.axis t i).isSome ↔ i < n) ∧ ((q.dd t i).isSome ↔ i < n) ∧ ((c.dd t i).isSome ↔ i < n) := by
  unfold LineSegment.axis QuadraticBezier.axis CubicBezier.axis QuadraticBezier.dd CubicBezier.dd
  rcases Nat.lt_or_ge i n with hi | hi
  · simp [axis_some_pn _ hi, hi]
  · simp [axis_none_pn _ hi, Nat.not_lt.2 hi]

/-- **C87**, distances, flatness tests, root finders and lengths of the fixed-degree curves never
panic. -/
theorem C87_total (l : LineSegment (PointN S n)) (q : QuadraticBezier (PointN S n))
    (c : CubicBezier (PointN S n)) (p : PointN S n) (x y z w : S) (k : ℕ) :
    (l.distanceToPoint p).isSome ∧ (q.distanceToPoint p).isSome ∧ (c.distanceToPoint p).isSome ∧
    (q.isLinear x).isSome ∧ (c.isLinear x).isSome ∧
    (l.root x y).isSome ∧ (q.realRoots x y z).isSome ∧ (c.realRoots x y z w).isSome ∧
    (rootsSquare x y z).isSome ∧ (rootsCubic x y z w).isSome ∧
    (q.arclen k).isSome ∧ (c.arclen k).isSome := by
  refine ⟨line_distance_isSome l p, ?_, ?_, ?_, ?_, ?_, ?_, ?_, ?_, ?_, ?_, ?_⟩
  · unfold QuadraticBezier.distanceToPoint
    refine isSome_bind_of (forRange_isSome _ _ _ _ fun i s _ _ => ?_) fun s =>
      isSome_bind_of (forRange_isSome _ _ _ _ fun i s _ _ => ?_) fun _ => rfl
    · simp only; split_ifs <;> rfl
    · simp only; split_ifs <;> rfl
  · unfold CubicBezier.distanceToPoint
    refine isSome_bind_of (forRange_isSome _ _ _ _ fun i s _ _ => ?_) fun s =>
      isSome_bind_of (forRange_isSome _ _ _ _ fun i s _ _ => ?_) fun _ => rfl
    · simp only; split_ifs <;> rfl
    · simp only; split_ifs <;> rfl
  · unfold QuadraticBezier.isLinear
    split_ifs
    · rfl
    · exact quad_colinear_isSome q x
  · unfold CubicBezier.isLinear
    split_ifs
    · rfl
    · exact cubic_colinear_isSome c x
  · unfold LineSegment.root
    split_ifs <;> rfl
  · obtain ⟨rs, h, -⟩ := quad_roots_some q x y z; rw [h]; rfl
  · obtain ⟨rs, h, -⟩ := cubic_roots_some c x y z w; rw [h]; rfl
  · obtain ⟨rs, h, -⟩ := rootsSquare_some x y z; rw [h]; rfl
  · obtain ⟨rs, h, -⟩ := rootsCubic_some x y z w; rw [h]; rfl
  · exact forRange_isSome _ _ _ _ fun i s _ _ => rfl
  · exact forRange_isSome _ _ _ _ fun i s _ _ => rfl

/-- **C87**, the generic `Bezier`: whether a method panics is decided by `N` alone. -/
theorem C87_bezier {P : Type} [Point S P] {N : ℕ} (b : Bezier P N) (t : S) (p : P) (k : ℕ) :
    ((b.eval t).isSome ↔ 1 ≤ N) ∧ (b.split t).isSome ∧
    ((Bezier.derivative (S := S) b).isSome ↔ N ≠ 1) ∧
    ((b.distanceToPoint p).isSome ↔ 1 ≤ N) ∧ ((b.arclen k).isSome ↔ 1 ≤ N ∨ k ≤ 1) := by
  have ev : ∀ t : S, (b.eval t).isSome ↔ 1 ≤ N := by
    intro t
    rcases Nat.eq_zero_or_pos N with h | h
    · subst h
      unfold Bezier.eval
      rw [forRange_empty (by omega)]
      simp [Arr.get?_ge]
    · rw [bezier_eval_cas b h t]; exact ⟨fun _ => h, fun _ => rfl⟩
  refine ⟨ev t, ?_, ?_, ?_, ?_⟩
  · rw [bezier_split_cas]; rfl
  · rcases Nat.lt_or_ge N 2 with h | h
    · have : N = 0 ∨ N = 1 := by omega
      rcases this with rfl | rfl
      · unfold Bezier.derivative
        simp [forBreak]
      · rw [bezier_derivative_one]; simp
    · rw [bezier_derivative_eq b h]
      simp; omega
  · rcases Nat.eq_zero_or_pos N with h | h
    · subst h
      unfold Bezier.distanceToPoint
      simp [Arr.get?_ge]
    · refine ⟨fun _ => h, fun _ => ?_⟩
      unfold Bezier.distanceToPoint
      refine isSome_bind_of (by rw [Arr.get?_lt _ h]; rfl) fun _ =>
        isSome_bind_of (forRange_isSome _ _ _ _ fun i s _ _ => ?_) fun s =>
        isSome_bind_of (forRange_isSome _ _ _ _ fun i s _ _ => ?_) fun _ => rfl
      · refine isSome_bind_of ((ev _).2 h) fun _ => ?_
        split_ifs <;> rfl
      · refine isSome_bind_of ((ev _).2 h) fun _ => ?_
        split_ifs <;> rfl
  · rcases Nat.lt_or_ge 1 k with hk | hk
    · rcases Nat.eq_zero_or_pos N with h | h
      · subst h
        refine ⟨fun hs => ?_, fun hs => by omega⟩
        exfalso
        unfold Bezier.arclen at hs
        simp only at hs
        rw [forRange_first hk] at hs
        have hn : ∀ t : S, b.eval t = none := fun t => by
          rw [← Option.not_isSome_iff_eq_none, ev t]; omega
        simp [hn] at hs
      · refine ⟨fun _ => Or.inl h, fun _ => ?_⟩
        unfold Bezier.arclen
        refine forRange_isSome _ _ _ _ fun i s _ _ => ?_
        exact isSome_bind_of ((ev _).2 h) fun _ => isSome_bind_of ((ev _).2 h) fun _ => rfl
    · refine ⟨fun _ => Or.inr hk, fun _ => ?_⟩
      unfold Bezier.arclen
      simp only
      rw [forRange_empty hk]
      rfl

/-! ### Bounding boxes -/

theorem sort_some (hc : ∀ a b : S, (partialCmp a b).isSome) (l : List S) :
    ∃ r, sortUnwrap l = some r ∧ r.length = l.length := by
  have ins : ∀ (x : S) (l : List S), ∃ r, insertSorted x l = some r ∧ r.length = l.length + 1 := by
    intro x l
    induction l with
    | nil => exact ⟨_, rfl, rfl⟩
    | cons y ys ih =>
      obtain ⟨r, hr, hlen⟩ := ih
      obtain ⟨o, ho⟩ := Option.isSome_iff_exists.1 (hc x y)
      unfold insertSorted
      rw [ho]
      cases o with
      | lt => exact ⟨_, rfl, rfl⟩
      | eq => exact ⟨_, rfl, rfl⟩
      | gt => refine ⟨y :: r, by simp [hr], by simp [hlen]⟩
  induction l with
  | nil => exact ⟨[], rfl, rfl⟩
  | cons x xs ih =>
    obtain ⟨r, hr, hlen⟩ := ih
    obtain ⟨r', hr', hlen'⟩ := ins x r
    exact ⟨r', by unfold sortUnwrap; rw [hr]; exact hr', by simp [hlen', hlen]⟩

theorem mapM_some_len {α β : Type} {f : α → Option β} (hf : ∀ a, (f a).isSome) (l : List α) :
    ∃ r, l.mapM f = some r ∧ r.length = l.length := by
  induction l with
  | nil => exact ⟨[], rfl, rfl⟩
  | cons x xs ih =>
    obtain ⟨r, hr, hlen⟩ := ih
    obtain ⟨y, hy⟩ := Option.isSome_iff_exists.1 (hf x)
    exact ⟨y :: r, by rw [List.mapM_cons, hy, hr]; rfl, by simp [hlen]⟩

theorem ends_some {l : List S} (h : 1 ≤ l.length) :
    (l.head?.bind fun lo => l.getLast?.bind fun hi => some (lo, hi)).isSome := by
  cases l with
  | nil => simp at h
  | cons x xs => simp [List.getLast?_cons]

/-- **C87**, bounding boxes: line segments never panic; quadratic and cubic curves panic only if
two scalars are incomparable (NaN). -/
theorem C87_bounding_box (l : LineSegment (PointN S n)) (q : QuadraticBezier (PointN S n))
    (c : CubicBezier (PointN S n)) :
    l.boundingBox.isSome ∧
    (q.boundingBox = none → ∃ a b : S, partialCmp a b = none) ∧
    (c.boundingBox = none → ∃ a b : S, partialCmp a b = none) := by
  refine ⟨?_, ?_, ?_⟩
  · unfold LineSegment.boundingBox
    refine forRange_isSome _ _ _ _ fun i s _ hi => ?_
    rw [iter_length_pn] at hi
    rw [axis_some_pn _ hi, axis_some_pn _ hi]
    simp only [Option.bind_eq_bind, Option.bind_some]
    have hi' : i < Point.dim (PointN S n) := hi
    split_ifs <;> rw [Arr.set?_lt _ hi'] <;> rfl
  · intro h
    by_contra hne
    push Not at hne
    have hc : ∀ a b : S, (partialCmp a b).isSome := fun a b => Option.isSome_iff_ne_none.2 (hne a b)
    have : q.boundingBox.isSome := by
      unfold QuadraticBezier.boundingBox
      refine forRange_isSome _ _ _ _ fun i s _ hi => ?_
      rw [iter_length_pn] at hi
      have hi' : i < Point.dim (PointN S n) := hi
      refine isSome_bind_of ?_ fun x => by rw [Arr.set?_lt _ hi']; rfl
      unfold QuadraticBezier.axisBounds
      rw [axis_some_pn _ hi, axis_some_pn _ hi, axis_some_pn q.start hi, axis_some_pn q.end_ hi]
      simp only [Option.bind_eq_bind, Option.bind_some, Option.pure_def]
      obtain ⟨rs, hrs, hl⟩ : ∃ rs, q.derivative.root
          ((q.derivative.start * (lit (-1) : S) + q.derivative.end_).coords ⟨i, hi⟩)
          (q.derivative.start.coords ⟨i, hi⟩) = some rs ∧ rs.length ≤ 1 := by
        unfold LineSegment.root
        split_ifs
        · exact ⟨_, rfl, by simp⟩
        · exact ⟨_, rfl, by simp⟩
      rw [hrs]
      simp only [Option.bind_some]
      rw [avExtend_ok rs [] (by simp; omega)]
      simp only [Option.bind_some, List.nil_append]
      obtain ⟨es, hes, hel⟩ := mapM_some_len (f := fun t => Point.axis (q.evalCasteljau t) i)
        (fun t => by rw [axis_some_pn _ hi]; rfl)
        (rs.filter fun root => Scalar.lt (lit 0) root && Scalar.lt root (lit 1))
      have hfl := List.length_filter_le
        (fun root => Scalar.lt (lit 0) root && Scalar.lt root (lit 1)) rs
      rw [hes]
      simp only [Option.bind_some]
      rw [avPush_ok _ (by omega)]
      simp only [Option.bind_some]
      rw [avPush_ok _ (by simp; omega)]
      simp only [Option.bind_some]
      obtain ⟨r, hr, hrl⟩ := sort_some hc
        (es ++ [q.start.coords ⟨i, hi⟩] ++ [q.end_.coords ⟨i, hi⟩])
      rw [hr]
      exact ends_some (by simp at hrl; omega)
    rw [h] at this
    simp at this
  · intro h
    by_contra hne
    push Not at hne
    have hc : ∀ a b : S, (partialCmp a b).isSome := fun a b => Option.isSome_iff_ne_none.2 (hne a b)
    have : c.boundingBox.isSome := by
      unfold CubicBezier.boundingBox
      refine forRange_isSome _ _ _ _ fun i s _ hi => ?_
      rw [iter_length_pn] at hi
      have hi' : i < Point.dim (PointN S n) := hi
      refine isSome_bind_of ?_ fun x => by rw [Arr.set?_lt _ hi']; rfl
      unfold CubicBezier.axisBounds
      rw [axis_some_pn _ hi, axis_some_pn _ hi, axis_some_pn _ hi, axis_some_pn c.start hi,
        axis_some_pn c.end_ hi]
      simp only [Option.bind_eq_bind, Option.bind_some, Option.pure_def]
      obtain ⟨rs, hrs, hl⟩ := quad_roots_some c.derivative
        ((c.derivative.start + c.derivative.ctrl * (lit (-2) : S) + c.derivative.end_).coords ⟨i, hi⟩)
        ((c.derivative.start * (lit (-2) : S) + c.derivative.ctrl * (lit 2 : S)).coords ⟨i, hi⟩)
        (c.derivative.start.coords ⟨i, hi⟩)
      rw [hrs]
      simp only [Option.bind_some]
      rw [avExtend_ok rs [] (by simp; omega)]
      simp only [Option.bind_some, List.nil_append]
      obtain ⟨es, hes, hel⟩ := mapM_some_len (f := fun t => Point.axis (c.evalCasteljau t) i)
        (fun t => by rw [axis_some_pn _ hi]; rfl)
        (rs.filter fun root => Scalar.lt (lit 0) root && Scalar.lt root (lit 1))
      have hfl := List.length_filter_le
        (fun root => Scalar.lt (lit 0) root && Scalar.lt root (lit 1)) rs
      rw [hes]
      simp only [Option.bind_some]
      rw [avPush_ok _ (by omega)]
      simp only [Option.bind_some]
      rw [avPush_ok _ (by simp; omega)]
      simp only [Option.bind_some]
      obtain ⟨r, hr, hrl⟩ := sort_some hc
        (es ++ [c.start.coords ⟨i, hi⟩] ++ [c.end_.coords ⟨i, hi⟩])
      rw [hr]
      exact ends_some (by simp at hrl; omega)
    rw [h] at this
    simp at this

/-- The theorems apply to floats, with NaN and infinities among the inputs: a cubic with a NaN
control point still has a distance and an approximate length. -/
example (F : FloatFormat) (p : PointN (Fl F) 2) (t : Fl F) :
    let c : CubicBezier (PointN (Fl F) 2) := ⟨p, ⟨fun _ => lit 0 / lit 0⟩, p, p⟩
    (c.distanceToPoint p).isSome ∧ (c.arclen 100).isSome ∧ SolvesInside (c.solveTForAxis t 1) := by
  intro c
  have h := C87_total ⟨p, p⟩ ⟨p, p, p⟩ c p t t t t 100
  exact ⟨h.2.2.1, h.2.2.2.2.2.2.2.2.2.2.2, (C87_solve ⟨p, p, p⟩ c t (by norm_num)).2⟩

end Stroke
