import Verif.Model.Cubic
import Verif.Model.Bezier
import Verif.Model.BSpline

/-!
# Loops the source writes out more than once

The model has one definition per function of the source.  Several of these contain the same
loop: `arclen` and `distance_to_point` of the three Bezier types, the last loop of
`solve_t_for_axis`, a level of de Casteljau's algorithm in `eval` and `split`, the binary search
of the three clamped span searches, and the cubic formula of `roots_cubic` and
`CubicBezier::real_roots`.  The definitions here name the common loop for the
proofs, and the lemmas say that each function of the model is an instance of it.  Nothing here
belongs to the model.
-/

set_option linter.unusedSectionVars false

namespace Stroke

variable {S P : Type} [Scalar S] [Point S P] {N K C D : Nat}

/-- The number of samples of a pass of `distance_to_point`. -/
def nstepsDistance : Nat := 64

/-- The coarse pass of `distance_to_point`. -/
def coarsePass (eval : S → Option P) (point : P) (s : S × S) : Option (S × S) :=
  forRange 0 nstepsDistance s fun i s => do
    let t := Scalar.ofUsize i * lit 1 / Scalar.ofUsize nstepsDistance
    let candidate ← eval t
    if Scalar.lt (Point.squaredLength (candidate - point)) s.2 then
      pure (t, Point.squaredLength (candidate - point))
    else pure s

/-- The fine pass of `distance_to_point`. -/
def finePass (eval : S → Option P) (point : P) (s : S × S) : Option (S × S) :=
  forRange 0 nstepsDistance s fun i s => do
    let t := Scalar.ofUsize i * lit 1 / Scalar.ofUsize (nstepsDistance * nstepsDistance)
    let candidate ← eval (s.1 + t - t * (Scalar.ofUsize nstepsDistance / lit 2))
    if Scalar.lt (Point.squaredLength (candidate - point)) s.2 then
      pure (t, Point.squaredLength (candidate - point))
    else pure s

/-- `distance_to_point` for an arbitrary evaluation method and first control point. -/
def searchDistance (eval : S → Option P) (first point : P) : Option S := do
  let s : S × S := (lit (1/2), Point.squaredLength (point - first))
  let s ← coarsePass eval point s
  let s ← finePass eval point s
  pure (Scalar.sqrt s.2)

/-- `arclen` for an arbitrary evaluation method. -/
def sampledArclen (eval : S → Option P) (nsteps : Nat) : Option S :=
  let stepsize : S := lit 1 / Scalar.ofUsize nsteps
  forRange 1 nsteps (lit 0) fun i arclen => do
    let t := Scalar.ofUsize i * lit 1 / Scalar.ofUsize nsteps
    let p1 ← eval t
    let p2 ← eval (t + stepsize)
    pure (arclen + Scalar.sqrt (Point.squaredLength (p1 - p2)))

/-- The last loop of `solve_t_for_axis`. -/
def keepInside (roots : List S) : Option (List S) :=
  roots.foldlM (fun result root =>
    if Scalar.lt (lit 0) root && Scalar.lt root (lit 1) then avPush 3 result root
    else some result) []

/-- One level of de Casteljau's algorithm. -/
def casteljauLevel (t : S) (n : Nat) (p : Arr P N) : Option (Arr P N) :=
  forRange 0 n p fun j p => do
    let a ← p.get? j
    let b ← p.get? (j + 1)
    p.set? j (a * (-t + lit 1) + b * t)

theorem quadratic_arclen_eq (q : QuadraticBezier P) (n : Nat) :
    q.arclen n = sampledArclen (fun t => some (q.evalCasteljau t)) n := rfl

theorem cubic_arclen_eq (c : CubicBezier P) (n : Nat) :
    c.arclen n = sampledArclen (fun t => some (c.evalCasteljau t)) n := rfl

theorem bezier_arclen_eq (b : Bezier P N) (n : Nat) :
    b.arclen n = sampledArclen b.eval n := rfl

theorem quadratic_distance_eq (q : QuadraticBezier P) (p : P) :
    q.distanceToPoint p = searchDistance (fun t => some (q.eval t)) q.start p := rfl

theorem cubic_distance_eq (c : CubicBezier P) (p : P) :
    c.distanceToPoint p = searchDistance (fun t => some (c.eval t)) c.start p := rfl

theorem bezier_distance_eq (b : Bezier P N) (p : P) :
    b.distanceToPoint p
      = (b.control_points.get? 0).bind fun first => searchDistance b.eval first p := rfl

theorem cubic_realRoots_eq (z : CubicBezier P) (a b c d : S) :
    z.realRoots a b c d = rootsCubic a b c d := rfl

theorem bezier_eval_eq (b : Bezier P N) (t : S) :
    b.eval t = (do
      let p ← forRange 1 (N + 1) b.control_points fun i p => do
        casteljauLevel t (← usub N i) p
      p.get? 0) := rfl

theorem bezier_split_eq (b : Bezier P N) (t : S) :
    b.split t = (do
      let (left, right, _) ←
        forRange 1 (N + 1) (b.control_points, b.control_points, b.control_points)
          fun i (left, right, casteljau_points) => do
            let left ← left.set? (← usub i 1) (← casteljau_points.get? 0)
            let k ← usub N i
            let right ← right.set? k (← casteljau_points.get? k)
            let casteljau_points ← casteljauLevel t k casteljau_points
            pure (left, right, casteljau_points)
      pure (⟨left⟩, ⟨right⟩)) := by
  have h : (fun (i : Nat) (s : Arr P N × Arr P N × Arr P N) => (do
            let left ← s.1.set? (← usub i 1) (← s.2.2.get? 0)
            let k ← usub N i
            let right ← s.2.1.set? k (← s.2.2.get? k)
            let n ← usub N i
            let casteljau_points ← casteljauLevel t n s.2.2
            pure (left, right, casteljau_points) : Option (Arr P N × Arr P N × Arr P N)))
      = fun i s => (do
            let left ← s.1.set? (← usub i 1) (← s.2.2.get? 0)
            let k ← usub N i
            let right ← s.2.1.set? k (← s.2.2.get? k)
            let casteljau_points ← casteljauLevel t k s.2.2
            pure (left, right, casteljau_points)) := by
    funext i s
    cases hk : usub N i with
    | none => rfl
    | some k => rfl
  exact congrArg (fun f => do
    let s ← forRange 1 (N + 1) (b.control_points, b.control_points, b.control_points) f
    pure ((⟨s.1⟩, ⟨s.2.1⟩) : Bezier P N × Bezier P N)) h

theorem spanClampedStartLoop_eq (knots : Arr S K) (t : S) (low high : Nat) :
    BSpline.spanClampedStartLoop knots t low high
      = BSpline.spanClampedLoop knots t low high := by
  by_cases h : low ≤ high
  · have hlo := spanClampedStartLoop_eq knots t ((low + high) / 2 + 1) high
    have hhi (h0 : ¬ (low + high) / 2 = 0) := spanClampedStartLoop_eq knots t low ((low + high) / 2 - 1)
    rw [BSpline.spanClampedStartLoop, BSpline.spanClampedLoop, if_pos h, if_pos h]
    simp only [hlo]
    by_cases h0 : (low + high) / 2 = 0
    · simp only [h0, if_true]
    · simp only [h0, if_false, hhi h0]
  · rw [BSpline.spanClampedStartLoop, BSpline.spanClampedLoop, if_neg h, if_neg h]
termination_by high + 1 - low
decreasing_by all_goals omega

theorem spanClampedEndLoop_eq (knots : Arr S K) (t : S) (low high : Nat) :
    BSpline.spanClampedEndLoop knots t low high
      = BSpline.spanClampedLoop knots t low high := by
  by_cases h : low ≤ high
  · have hlo := spanClampedEndLoop_eq knots t ((low + high) / 2 + 1) high
    have hhi (h0 : ¬ (low + high) / 2 = 0) := spanClampedEndLoop_eq knots t low ((low + high) / 2 - 1)
    rw [BSpline.spanClampedEndLoop, BSpline.spanClampedLoop, if_pos h, if_pos h]
    simp only [hlo]
    by_cases h0 : (low + high) / 2 = 0
    · simp only [h0, if_true]
    · simp only [h0, if_false, hhi h0]
  · rw [BSpline.spanClampedEndLoop, BSpline.spanClampedLoop, if_neg h, if_neg h]
termination_by high + 1 - low
decreasing_by all_goals omega

end Stroke
