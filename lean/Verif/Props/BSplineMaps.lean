import Verif.Props.BSplineShape

set_option linter.unusedSectionVars false

/-!
# B-splines under maps of the control points (C80)
-/

namespace Stroke

/-! ### Specification -/

/-- A linear map between point types: every output coordinate is a linear function of the input
coordinates. -/
def IsLinearMap {P Q : Type} [Point ℝ P] [Point ℝ Q] (f : P → Q) : Prop :=
  ∀ i, ∃ m : ℕ → ℝ, ∀ p, coord (f p) i = ∑ j ∈ Finset.range (Point.dim P), m j * coord p j

/-- What a call returns when the returned value is passed through `f`; errors and panics stay. -/
def Outcome.mapOk {α β : Type} (f : α → β) : Outcome α → Outcome β
  | .ok a => .ok (f a)
  | .err e => .err e
  | .panic => .panic

/-! ### Simulation -/

theorem foldlM_map {m : Type → Type} [Monad m] [LawfulMonad m] {σ τ ι : Type} (φ : σ → τ)
    (f : σ → ι → m σ) (g : τ → ι → m τ) (h : ∀ s i, g (φ s) i = φ <$> f s i) (l : List ι) :
    ∀ s, l.foldlM g (φ s) = φ <$> l.foldlM f s := by
  induction l with
  | nil => intro s; simp
  | cons i l ih =>
    intro s
    rw [List.foldlM_cons, List.foldlM_cons, h, map_bind, bind_map_left]
    congr 1
    funext s'
    exact ih s'

theorem forBreak_map {m : Type → Type} [Monad m] [LawfulMonad m] {σ τ : Type} (φ : σ → τ)
    (f : ℕ → σ → m (Bool × σ)) (g : ℕ → τ → m (Bool × τ))
    (h : ∀ i s, g i (φ s) = (fun x : Bool × σ => (x.1, φ x.2)) <$> f i s) (l : List ℕ) :
    ∀ s, forBreak g l (φ s) = φ <$> forBreak f l s := by
  induction l with
  | nil => intro s; simp [forBreak]
  | cons i l ih =>
    intro s
    simp only [forBreak]
    rw [h, map_bind, bind_map_left]
    congr 1
    funext x
    obtain ⟨b, s'⟩ := x
    cases b
    · exact ih s'
    · simp

section
variable {S P Q : Type} [Scalar S] [Point S P] [Point S Q] {K C D : ℕ}

/-- `f` respects the operations `eval` uses. -/
structure RespectsOps (f : P → Q) : Prop where
  default : f Point.default = Point.default
  add : ∀ p q, f (p + q) = f p + f q
  mul : ∀ p (s : S), f (p * s) = f p * s

theorem get?_comp {α β : Type} {n : ℕ} (f : α → β) (a : Arr α n) (i : ℕ) :
    Arr.get? (fun k => f (a k)) i = f <$> a.get? i := by
  unfold Arr.get?; split <;> rfl

theorem set?_comp {α β : Type} {n : ℕ} (f : α → β) (a : Arr α n) (i : ℕ) (v : α) :
    Arr.set? (fun k => f (a k)) i (f v) = (fun (a : Arr α n) k => f (a k)) <$> a.set? i v := by
  unfold Arr.set?
  split
  · show some _ = some _
    congr 1
    funext k
    show (if k.val = i then f v else f (a k)) = f (if k.val = i then v else a k)
    split <;> rfl
  · rfl

theorem ofOption_map {α β : Type} (f : α → β) (o : Option α) :
    Outcome.ofOption (f <$> o) = f <$> Outcome.ofOption o := by
  cases o <;> rfl

theorem mapOk_eq {α β : Type} (f : α → β) (o : Outcome α) : o.mapOk f = f <$> o := by
  cases o <;> rfl

theorem copyPoints_map (f : P → Q) (ps : Arr P C) (k : ℕ) (d : Arr P (D + 1)) :
    BSpline.copyPoints (fun i => f (ps i)) k (fun i => f (d i))
      = (fun (d : Arr P (D + 1)) k => f (d k)) <$> BSpline.copyPoints ps k d := by
  unfold BSpline.copyPoints forRange
  refine foldlM_map (m := Option) (fun (d : Arr P (D + 1)) k => f (d k)) _ _ (fun s j => ?_) _ d
  beta_reduce
  cases usub (j + k) D with
  | none => rfl
  | some i =>
    simp only [Option.bind_eq_bind, Option.bind_some, get?_comp]
    cases ps.get? i with
    | none => rfl
    | some v => exact set?_comp f s j v

theorem deBoorRound_map {f : P → Q} (hf : RespectsOps (S := S) f) (knots : Arr S K) (t : S)
    (k r : ℕ) (d : Arr P (D + 1)) :
    BSpline.deBoorRound knots t k r (fun i => f (d i))
      = (fun (d : Arr P (D + 1)) k => f (d k)) <$> BSpline.deBoorRound knots t k r d := by
  unfold BSpline.deBoorRound forRangeRev
  refine foldlM_map (m := Outcome) (fun (d : Arr P (D + 1)) k => f (d k)) _ _ (fun s j => ?_) _ d
  beta_reduce
  cases BSpline.alpha (D := D) knots t k r j with
  | err e => rfl
  | panic => rfl
  | ok a =>
    simp only [Outcome.ok_bind]
    cases usub j 1 with
    | none => rfl
    | some j' =>
      simp only [Option.bind_eq_bind, Option.bind_some, get?_comp]
      cases Arr.get? s j' with
      | none => rfl
      | some dl =>
        cases Arr.get? s j with
        | none => rfl
        | some dj =>
          show Outcome.ofOption (Arr.set? (fun k => f (s k)) j
            (f dl * (lit 1 - a) + f dj * a)) = _ <$> Outcome.ofOption (Arr.set? s j
              (dl * (lit 1 - a) + dj * a))
          rw [← hf.mul, ← hf.mul, ← hf.add, set?_comp, ofOption_map]

/-- **C80** (any arithmetic): if `f` respects the origin, sums and multiples, then evaluating the
spline with mapped control points gives the mapped point, the same error, or panics alike. -/
theorem C80_any_arithmetic {f : P → Q} (hf : RespectsOps (S := S) f) (b : BSpline S P K C D)
    (t : S) :
    BSpline.eval (D := D) ⟨b.knots, b.knot_kind, fun i => f (b.control_points i)⟩ t
      = (b.eval t).mapOk f := by
  rw [mapOk_eq]
  unfold BSpline.eval
  have hd : BSpline.knotDomain (D := D) ⟨b.knots, b.knot_kind, fun i => f (b.control_points i)⟩
      = b.knotDomain := rfl
  rw [hd]
  cases b.knotDomain with
  | none => rfl
  | some d =>
    obtain ⟨lo, hi⟩ := d
    simp only [Outcome.ofOption_some, Outcome.ok_bind]
    split
    · rfl
    · unfold BSpline.deBoorIterative
      have hs : BSpline.knotSpanStart (D := D)
          ⟨b.knots, b.knot_kind, fun i => f (b.control_points i)⟩ t = b.knotSpanStart t := rfl
      rw [hs]
      cases b.knots.get? C with
      | none => rfl
      | some kC =>
        simp only [Outcome.ofOption_some, Outcome.ok_bind]
        split
        · cases usub C 1 with
          | none => rfl
          | some i =>
            simp only [Option.bind_eq_bind, Option.bind_some, get?_comp]
            exact ofOption_map f _
        · cases b.knotSpanStart t with
          | none => rfl
          | some o =>
            simp only [Outcome.ofOption_some, Outcome.ok_bind]
            cases o with
            | none => rfl
            | some k =>
              simp only []
              have h0 : (fun _ => Point.default : Arr Q (D + 1))
                  = fun i => f ((fun _ => Point.default : Arr P (D + 1)) i) := by
                funext i; exact hf.default.symm
              rw [h0, copyPoints_map, ofOption_map, map_bind, bind_map_left]
              congr 1
              funext d
              rw [map_bind]
              have hl : forRange 1 (D + 1) (fun k => f (d k))
                    (fun r d => BSpline.deBoorRound b.knots t k r d)
                  = (fun (d : Arr P (D + 1)) k => f (d k)) <$> forRange 1 (D + 1) d
                    (fun r d => BSpline.deBoorRound b.knots t k r d) := by
                unfold forRange
                exact foldlM_map (m := Outcome) (fun (d : Arr P (D + 1)) k => f (d k)) _ _
                  (fun s r => deBoorRound_map hf _ _ _ _ _) _ d
              rw [hl, bind_map_left]
              congr 1
              funext d'
              rw [get?_comp, ofOption_map]

/-- **C80** for `derivative`, in any arithmetic. -/
theorem C80_derivative {f : P → Q} (hf : RespectsOps (S := S) f)
    (hsub : ∀ p q, f (p - q) = f p - f q) (b : BSpline S P K C D) :
    BSpline.derivative (D := D) ⟨b.knots, b.knot_kind, fun i => f (b.control_points i)⟩
      = b.derivative.map fun d => ⟨d.knots, d.knot_kind, fun i => f (d.control_points i)⟩ := by
  unfold BSpline.derivative
  have h0 : (fun _ => Point.default : Arr Q (C - 1))
      = fun i => f ((fun _ => Point.default : Arr P (C - 1)) i) := by
    funext i; exact hf.default.symm
  simp only [h0]
  let body : ℕ → Arr P (C - 1) → Option (Bool × Arr P (C - 1)) := fun i new_points => do
      let p1 ← b.control_points.get? (i + 1)
      let p0 ← b.control_points.get? i
      let kr ← b.knots.get? (i + D + 1)
      let kl ← b.knots.get? (i + 1)
      let new_points ← new_points.set? i
        ((p1 - p0) * (Scalar.ofUsize D / (kr - kl) : S))
      let last ← usub C 2
      pure (i == last, new_points)
  rw [forBreak_map (m := Option) (fun (d : Arr P (C - 1)) k => f (d k)) body]
  · show _ = Option.map _ (forBreak body _ _ >>= _)
    cases forBreak body (List.range C) (fun _ => (Point.default : P)) with
    | none => rfl
    | some d => rfl
  · intro i s
    simp only [get?_comp, body]
    cases b.control_points.get? (i + 1) with
    | none => rfl
    | some p1 =>
      cases b.control_points.get? i with
      | none => rfl
      | some p0 =>
        cases b.knots.get? (i + D + 1) with
        | none => rfl
        | some kr =>
          cases b.knots.get? (i + 1) with
          | none => rfl
          | some kl =>
            show (Arr.set? (fun k => f (s k)) i
              ((f p1 - f p0) * (Scalar.ofUsize D / (kr - kl) : S))).bind _ = _
            rw [← hsub, ← hf.mul, set?_comp]
            simp only [Option.bind_eq_bind, Option.bind_some]
            cases Arr.set? s i ((p1 - p0) * (Scalar.ofUsize D / (kr - kl) : S)) with
            | none => rfl
            | some s' =>
              cases usub C 2 with
              | none => rfl
              | some l => rfl

end

/-! ### Exact arithmetic -/

section
variable {P Q : Type} [Point ℝ P] [LawfulPoint P] [Point ℝ Q] [LawfulPoint Q] {K C D : ℕ}

theorem linear_respects {f : P → Q} (hf : IsLinearMap f) :
    RespectsOps (S := ℝ) f ∧ ∀ p q, f (p - q) = f p - f q := by
  refine ⟨⟨?_, fun p q => ?_, fun p s => ?_⟩, fun p q => ?_⟩ <;> apply point_ext <;> intro i <;>
    obtain ⟨m, h⟩ := hf i
  · simp [h]
  · simp [h, mul_add, Finset.sum_add_distrib]
  · rw [coord_mul, h, h, Finset.sum_mul]
    exact Finset.sum_congr rfl fun j _ => by rw [coord_mul]; ring
  · simp [h, mul_sub, Finset.sum_sub_distrib]

/-- **C80** (the part that holds): evaluation and derivative commute with every linear map of the
control points (also between point types of different dimensions), for every spline and every
parameter, including those where `eval` fails.  Missing for the full claim: translations
(`C80_false`). -/
theorem C80_linear_partial {f : P → Q} (hf : IsLinearMap f) {knots : Arr ℝ K} {ps : Arr P C}
    {b : BSpline ℝ P K C D} (h : BSpline.new knots ps = .ok b) :
    ∃ b' : BSpline ℝ Q K C D, BSpline.new knots (fun i => f (ps i)) = .ok b' ∧
      (∀ t, b'.eval t = (b.eval t).mapOk f) ∧
      (b'.derivative = b.derivative.map
        fun d => ⟨d.knots, d.knot_kind, fun i => f (d.control_points i)⟩) := by
  obtain ⟨v, rfl⟩ := (new_ok_iff _ _ _).1 h
  exact ⟨_, (new_ok_iff _ _ _).2 ⟨v, rfl⟩,
    fun t => C80_any_arithmetic (linear_respects hf).1
      (⟨knots, kindOf D knots, ps⟩ : BSpline ℝ P K C D) t,
    C80_derivative (linear_respects hf).1 (linear_respects hf).2
      (⟨knots, kindOf D knots, ps⟩ : BSpline ℝ P K C D)⟩

/-- **C80** is false for translations: moving both control points of a spline from 5 to 6 moves
its point at 1/2 from 5/2 to 3. -/
theorem C80_false : ∃ b b' : BSpline ℝ (PointN ℝ 1) 4 2 1,
    BSpline.new ![0, 0, 1, 1] ![p1 5, p1 5] = .ok b ∧
    BSpline.new ![0, 0, 1, 1] ![p1 5 + p1 1, p1 5 + p1 1] = .ok b' ∧
    b.eval (1 / 2 : ℝ) = .ok (p1 (5 / 2)) ∧ b'.eval (1 / 2 : ℝ) = .ok (p1 3) ∧
    p1 3 ≠ p1 (5 / 2) + p1 1 := by
  obtain ⟨b, b', h1, h2, h3, h4, -⟩ := C50_false
  have e : p1 5 + p1 1 = p1 6 := by
    apply point_ext; intro i
    rcases Nat.eq_zero_or_pos i with rfl | hi
    · simp [coord_p1]; norm_num
    · rw [coord_out _ (show ¬ i < 1 by omega), coord_out _ (show ¬ i < 1 by omega)]
  refine ⟨b, b', h1, by rw [e]; exact h2, h3, h4, fun h => ?_⟩
  have := congrArg (fun p => coord p 0) h
  simp [coord_p1] at this
  norm_num at this

/-- Test: the rotation by 90° is linear. -/
example : IsLinearMap (fun p : PointN ℝ 2 => pt2 (-coord p 1) (coord p 0)) := by
  intro i
  have hd : Point.dim (PointN ℝ 2) = 2 := rfl
  by_cases hi : i < 2
  · interval_cases i
    · refine ⟨fun j => if j = 1 then -1 else 0, fun p => ?_⟩
      rw [hd, Finset.sum_range_succ, Finset.sum_range_one]; simp
    · refine ⟨fun j => if j = 0 then 1 else 0, fun p => ?_⟩
      rw [hd, Finset.sum_range_succ, Finset.sum_range_one]; simp
  · exact ⟨fun _ => 0, fun p => by rw [coord_out _ hi]; simp⟩

end

end Stroke
