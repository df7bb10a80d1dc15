import Verif.Model.Bezier
import Verif.Model.BSpline

/-!
# The functions with `usize` arithmetic, for a target with `w`-bit words

The rest of the model computes with natural numbers and lets a subtraction below zero panic. Here the
functions that add or subtract numbers of type `usize` are written again, with the arithmetic as a
parameter: `UsizeArith.checked w` is a build with overflow checks (the `dev` profile),
`UsizeArith.wrapping w` one without them (the `release` profile).
`0..n` and `1..=n` do no arithmetic that can overflow. `while` loops have a number of rounds
`fuel` to run, and the outcome `Run.more` if that is not enough.
-/

namespace Stroke

/-- Addition and subtraction of `usize` numbers (src/bezier.rs:78, src/bspline.rs:82, 263, ...); `none`
is a panic. -/
structure UsizeArith where
  add : Nat → Nat → Option Nat
  sub : Nat → Nat → Option Nat

namespace UsizeArith

/-- `w`-bit arithmetic with overflow checks (src/bspline.rs:263 compiled with the `dev` profile). -/
def checked (w : Nat) : UsizeArith where
  add a b := if a + b < 2 ^ w then some (a + b) else none
  sub a b := if b ≤ a then some (a - b) else none

/-- `w`-bit arithmetic modulo 2^w (src/bspline.rs:263 compiled with the `release` profile). -/
def wrapping (w : Nat) : UsizeArith where
  add a b := some ((a + b) % 2 ^ w)
  sub a b := some ((a + 2 ^ w - b) % 2 ^ w)

end UsizeArith

/-- The state of a loop that is run for a number of rounds (the `while` loops of
src/bspline.rs:325-339, 355-365, 388-399, 420-431): finished with a value, panicked, or still
running. -/
inductive Run (α : Type) where
  | done (a : α)
  | panic
  | more

/-- Sequencing with an expression that may panic (the indexing in src/bspline.rs:325-431). -/
def Run.ofOption {α β : Type} (x : Option α) (f : α → Run β) : Run β :=
  match x with
  | some a => f a
  | none => .panic

section Bezier

variable {S P : Type} [Scalar S] [Point S P] {N : Nat} (A : UsizeArith)

/-- src/bezier.rs:72-83 `eval`. -/
def Bezier.evalU (b : Bezier P N) (t : S) : Option P := do
  let p ← forRange 1 (N + 1) b.control_points fun i p => do
    let n ← A.sub N i
    forRange 0 n p fun j p => do
      let a ← p.get? j
      let b ← p.get? (← A.add j 1)
      p.set? j (a * (-t + lit 1) + b * t)
  p.get? 0

/-- src/bezier.rs:120-148 `split`. -/
def Bezier.splitU (b : Bezier P N) (t : S) : Option (Bezier P N × Bezier P N) := do
  let (left, right, _) ← forRange 1 (N + 1)
    (b.control_points, b.control_points, b.control_points)
    fun i (left, right, casteljau_points) => do
      let left ← left.set? (← A.sub i 1) (← casteljau_points.get? 0)
      let k ← A.sub N i
      let right ← right.set? k (← casteljau_points.get? k)
      let n ← A.sub N i
      let casteljau_points ← forRange 0 n casteljau_points fun j casteljau_points => do
        let a ← casteljau_points.get? j
        let b ← casteljau_points.get? (← A.add j 1)
        casteljau_points.set? j (a * (-t + lit 1) + b * t)
      pure (left, right, casteljau_points)
  pure (⟨left⟩, ⟨right⟩)

/-- src/bezier.rs:156-166 `derivative`; `N - 1` is computed at compile time. -/
def Bezier.derivativeU (b : Bezier P N) : Option (Bezier P (N - 1)) := do
  let new_points : Arr P (N - 1) := fun _ => Point.default
  let new_points ← forBreak (fun i (new_points : Arr P (N - 1)) => do
      let p1 ← b.control_points.get? (← A.add i 1)
      let p0 ← b.control_points.get? i
      let new_points ← new_points.set? i ((p1 - p0) * (Scalar.ofUsize (N - 1) : S))
      let last ← A.sub N 2
      pure (i == last, new_points)) (List.range N) new_points
  pure (new new_points)

end Bezier

namespace BSpline

variable {S P : Type} [Scalar S] [Point S P] {K C D : Nat} (A : UsizeArith)

/-- src/bspline.rs:75-110 `new`. -/
def newU (knots : Arr S K) (control_points : Arr P C) : Outcome (BSpline S P K C D) :=
  if C ≤ D then .err .TooFewControlPoints
  else do
    let sum ← .ofOption (do A.add (← A.add C 1) D)
    if K < sum then .err .TooFewKnots
    else do
      let sum ← .ofOption (do A.add (← A.add C 1) D)
      if K > sum then .err .TooManyKnots
      else if anyDecrease knots.toList then .err .DecreasingKnots
      else do
        let first ← .ofOption (knots.get? 0)
        let is_clamped_front := (knots.toList.take (D + 1)).all fun knot =>
          Scalar.lt (Scalar.abs (knot - first)) Scalar.epsilon
        let start ← .ofOption (do A.sub (← A.sub K D) 1)
        let last ← .ofOption (do knots.get? (← A.sub K 1))
        let is_clamped_back := (knots.toList.drop start).all fun knot =>
          Scalar.lt (Scalar.abs (knot - last)) Scalar.epsilon
        let knot_kind := match is_clamped_front, is_clamped_back with
          | false, false => KnotVectorKind.Unclamped
          | true, false => KnotVectorKind.ClampedStart
          | false, true => KnotVectorKind.ClampedEnd
          | true, true => KnotVectorKind.Clamped
        .ok { knots, knot_kind, control_points }

/-- src/bspline.rs:146-180 `knot_domain` with the four functions it calls. -/
def knotDomainU (b : BSpline S P K C D) : Option (S × S) :=
  match b.knot_kind with
  | .Clamped => do
    let lo ← b.knots.get? D
    let hi ← b.knots.get? (← A.sub (← A.sub K 1) D)
    pure (lo, hi)
  | .ClampedStart => do
    let lo ← b.knots.get? D
    let hi ← b.knots.get? (← A.sub K 1)
    pure (lo, hi)
  | .ClampedEnd => do
    let lo ← b.knots.get? 0
    let hi ← b.knots.get? (← A.sub (← A.sub K 1) D)
    pure (lo, hi)
  | .Unclamped => do
    let lo ← b.knots.get? D
    let hi ← b.knots.get? C
    pure (lo, hi)

/-- src/bspline.rs:325-339, the loop of `knot_span_start_for_t_unclamped`. `count` and `step` are of
type `isize`; they stay between 0 and the number of knots. -/
def spanUnclampedLoopU (knots : Arr S K) (t : S) : Nat → Nat → Nat → Run (Option Nat)
  | 0, _, count => if 0 < count then .more else .done none
  | fuel + 1, first, count =>
    if 0 < count then
      let step := count / 2
      .ofOption (A.add first step) fun it =>
      .ofOption (do knots.get? (← A.add it 1)) fun k1 =>
      if Scalar.lt t k1 then .done (some it)
      else
        .ofOption (A.add it 1) fun it1 =>
        .ofOption (A.sub K 2) fun k2 =>
        if it1 == k2 && Scalar.eq t k1 then .done (some it)
        else
          .ofOption (knots.get? it) fun k0 =>
          if Scalar.le k0 t then
            .ofOption (A.add it 1) fun first =>
            spanUnclampedLoopU knots t fuel first (count - (step + 1))
          else
            spanUnclampedLoopU knots t fuel first step
    else .done none

/-- src/bspline.rs:355-365, 388-399, 420-431: the loop `while low <= high`, the same in three
functions. -/
def spanLoopU (knots : Arr S K) (t : S) : Nat → Nat → Nat → Run (Option Nat)
  | 0, low, high => if low ≤ high then .more else .done none
  | fuel + 1, low, high =>
    if low ≤ high then
      .ofOption (A.add low high) fun sum =>
      let mid := sum / 2
      .ofOption (knots.get? mid) fun k0 =>
      .ofOption
        (if Scalar.le k0 t then do
          let k1 ← knots.get? (← A.add mid 1)
          pure (Scalar.lt t k1)
        else pure false) fun inside =>
      if inside then .done (some mid)
      else if Scalar.lt t k0 then
        .ofOption (A.sub mid 1) fun high => spanLoopU knots t fuel low high
      else
        .ofOption (A.add mid 1) fun low => spanLoopU knots t fuel low high
    else .done none

/-- src/bspline.rs:307-432 `knot_span_start_for_t` with the four functions it calls. -/
def knotSpanStartU (fuel : Nat) (b : BSpline S P K C D) (t : S) : Run (Option Nat) :=
  match b.knot_kind with
  | .Unclamped => spanUnclampedLoopU A b.knots t fuel 0 K
  | .ClampedStart =>
    .ofOption (A.sub C 1) fun n =>
    .ofOption (A.sub K 1) fun m =>
    .ofOption (b.knots.get? m) fun km =>
    if Scalar.eq t km then .done (some n)
    else
      .ofOption (b.knots.get? D) fun kp =>
      if Scalar.lt t kp || Scalar.lt km t then .done none
      else .ofOption (A.sub m 1) fun high => spanLoopU A b.knots t fuel D high
  | .Clamped =>
    .ofOption (A.sub C 1) fun n =>
    .ofOption (do b.knots.get? (← A.add n 1)) fun kn =>
    if Scalar.eq t kn then .done (some n)
    else spanLoopU A b.knots t fuel D n
  | .ClampedEnd =>
    .ofOption (A.sub C 1) fun n =>
    .ofOption (do b.knots.get? (← A.add n 1)) fun kn =>
    if Scalar.eq t kn then .done (some n)
    else
      .ofOption (b.knots.get? 0) fun k0 =>
      if Scalar.lt t k0 || Scalar.lt kn t then .done none
      else spanLoopU A b.knots t fuel 0 n

/-- src/bspline.rs:262-264: copying the control points. -/
def copyPointsU (control_points : Arr P C) (k : Nat) (d : Arr P (D + 1)) :
    Option (Arr P (D + 1)) :=
  forRange 0 D d fun j d => do
    d.set? j (← control_points.get? (← A.sub (← A.add j k) D))

/-- src/bspline.rs:282-298: the interpolation factor. -/
def alphaU (knots : Arr S K) (t : S) (k r j : Nat) : Outcome S := do
  let kl ← .ofOption (do knots.get? (← A.sub (← A.add j k) D))
  let kr ← .ofOption (do knots.get? (← A.sub (← A.add (← A.add j 1) k) r))
  let numerator := t - kl
  let denominator := kr - kl
  let alpha : S :=
    if Scalar.lt numerator Scalar.epsilon then lit 0
    else if Scalar.lt (Scalar.abs denominator) Scalar.epsilon then lit 1
    else numerator / denominator
  if Scalar.isNaN alpha then .err .EvaluationAlphaIsNaN else pure alpha

/-- src/bspline.rs:280-302: one round of de Boor's algorithm. -/
def deBoorRoundU (knots : Arr S K) (t : S) (k r : Nat) (d : Arr P (D + 1)) :
    Outcome (Arr P (D + 1)) :=
  forRangeRev r (D + 1) d fun j d => do
    let a ← alphaU (D := D) A knots t k r j
    let dl ← .ofOption (do d.get? (← A.sub j 1))
    let dj ← .ofOption (d.get? j)
    .ofOption (d.set? j (dl * (lit 1 - a) + dj * a))

/-- What `eval` does in a number of rounds (src/bspline.rs:115-129): `none` if its loop is still
running. -/
def runOutcome {α β : Type} (x : Run α) (f : α → Outcome β) : Option (Outcome β) :=
  match x with
  | .done a => some (f a)
  | .panic => some .panic
  | .more => none

/-- src/bspline.rs:241-305 `de_boor_iterative`. -/
def deBoorIterativeU (fuel : Nat) (b : BSpline S P K C D) (t : S) : Option (Outcome P) :=
  match b.knots.get? C with
  | none => some .panic
  | some kC =>
    if Scalar.eq t kC then
      some (.ofOption (do b.control_points.get? (← A.sub C 1)))
    else
      runOutcome (knotSpanStartU A fuel b t) fun k =>
        match k with
        | none => .err .KnotDomainViolation
        | some k => do
          let d : Arr P (D + 1) := fun _ => Point.default
          let d ← .ofOption (copyPointsU A b.control_points k d)
          let d ← forRange 1 (D + 1) d fun r d => deBoorRoundU A b.knots t k r d
          .ofOption (d.get? D)

/-- src/bspline.rs:115-129 `eval`. -/
def evalU (fuel : Nat) (b : BSpline S P K C D) (t : S) : Option (Outcome P) :=
  match knotDomainU A b with
  | none => some .panic
  | some (knot_start, knot_end) =>
    if Scalar.lt t knot_start || Scalar.lt knot_end t then
      some (.err .KnotDomainViolation)
    else
      deBoorIterativeU A fuel b t

/-- src/bspline.rs:471-485 `derivative`; `C - 1` and `D - 1` are computed at compile time. -/
def derivativeU (b : BSpline S P K C D) : Option (BSpline S P K (C - 1) (D - 1)) := do
  let new_points : Arr P (C - 1) := fun _ => Point.default
  let new_points ← forBreak (fun i (new_points : Arr P (C - 1)) => do
      let p1 ← b.control_points.get? (← A.add i 1)
      let p0 ← b.control_points.get? i
      let kr ← b.knots.get? (← A.add (← A.add i D) 1)
      let kl ← b.knots.get? (← A.add i 1)
      let new_points ← new_points.set? i
        ((p1 - p0) * (Scalar.ofUsize D / (kr - kl) : S))
      let last ← A.sub C 2
      pure (i == last, new_points)) (List.range C) new_points
  pure { knots := b.knots, knot_kind := b.knot_kind, control_points := new_points }

end BSpline

end Stroke
