import Verif.Model.Point

/-!
# src/bspline.rs
-/

namespace Stroke

/-- src/bspline.rs:7-14 `BSplineError`. -/
inductive BSplineError where
  | TooFewControlPoints
  | TooFewKnots
  | TooManyKnots
  | DecreasingKnots
  | KnotDomainViolation
  | EvaluationAlphaIsNaN
  deriving DecidableEq, Repr

/-- src/bspline.rs:17-22 `KnotVectorKind`. -/
inductive KnotVectorKind where
  | Unclamped
  | ClampedStart
  | ClampedEnd
  | Clamped
  deriving DecidableEq, Repr

/-- src/bspline.rs:24-37 `Display for BSplineError`. -/
def BSplineError.display : BSplineError → String
  | .TooFewControlPoints => "Too few control points"
  | .TooFewKnots => "Insufficient number of knots"
  | .TooManyKnots => "Excess number of knots"
  | .DecreasingKnots => "Knots must be non-decreasing in value"
  | .KnotDomainViolation => "Parameter outside of knot span"
  | .EvaluationAlphaIsNaN => "Cox-deBoor evaluation yields alpha NaN value"

/-- What a call returning `Result<_, BSplineError>` (src/bspline.rs:75-80, 115, 241, 307-432) can do:
return `Ok`, return `Err`, or panic. -/
inductive Outcome (α : Type) where
  | ok (a : α)
  | err (e : BSplineError)
  | panic

namespace Outcome

/-- The `?` operator and early `return Err(..)` (src/bspline.rs:122-128, 253-256, 295-297): the first
error or panic is the result. -/
def bind {α β : Type} (x : Outcome α) (f : α → Outcome β) : Outcome β :=
  match x with
  | ok a => f a
  | err e => err e
  | panic => panic

/-- Sequencing in a function that returns `Result<_, BSplineError>` (src/bspline.rs:75-432). -/
instance : Monad Outcome where
  pure := ok
  bind := bind

/-- A panicking expression inside a fallible function (indexing and `usize` arithmetic in
src/bspline.rs:75-432). -/
def ofOption {α : Type} : Option α → Outcome α
  | some a => ok a
  | none => panic

end Outcome

/-- src/bspline.rs:51-61 `BSpline<P, K, C, D>`. -/
structure BSpline (S P : Type) (K C D : Nat) where
  knots : Arr S K
  knot_kind : KnotVectorKind
  control_points : Arr P C

/-- `knots.windows(2).any(|w| w[0] > w[1])`, src/bspline.rs:87. -/
def anyDecrease {S : Type} [Scalar S] : List S → Bool
  | a :: b :: l => Scalar.lt b a || anyDecrease (b :: l)
  | _ => false

namespace BSpline

variable {S P : Type} [Scalar S] [Point S P] {K C D : Nat}

/-- src/bspline.rs:75-110 `new`. -/
def new (knots : Arr S K) (control_points : Arr P C) : Outcome (BSpline S P K C D) :=
  if C ≤ D then .err .TooFewControlPoints
  else if K < C + 1 + D then .err .TooFewKnots
  else if K > C + 1 + D then .err .TooManyKnots
  else if anyDecrease knots.toList then .err .DecreasingKnots
  else do
    let first ← .ofOption (knots.get? 0)
    let last ← .ofOption (do knots.get? (← usub K 1))
    let is_clamped_front := (knots.toList.take (D + 1)).all fun knot =>
      Scalar.lt (Scalar.abs (knot - first)) Scalar.epsilon
    let is_clamped_back := (knots.toList.drop (K - D - 1)).all fun knot =>
      Scalar.lt (Scalar.abs (knot - last)) Scalar.epsilon
    let knot_kind := match is_clamped_front, is_clamped_back with
      | false, false => KnotVectorKind.Unclamped
      | true, false => KnotVectorKind.ClampedStart
      | false, true => KnotVectorKind.ClampedEnd
      | true, true => KnotVectorKind.Clamped
    .ok { knots, knot_kind, control_points }

/-- src/bspline.rs:132-134 `control_points` (iteration). -/
def controlPoints (b : BSpline S P K C D) : List P := b.control_points.toList

/-- src/bspline.rs:137-139 `knots` (iteration). -/
def knotsIter (b : BSpline S P K C D) : List S := b.knots.toList

/-- src/bspline.rs:155-158 `knot_domain_clamped_start`. -/
def knotDomainClampedStart (b : BSpline S P K C D) : Option (S × S) := do
  let lo ← b.knots.get? D
  let hi ← b.knots.get? (← usub K 1)
  pure (lo, hi)

/-- src/bspline.rs:160-163 `knot_domain_clamped_end`. -/
def knotDomainClampedEnd (b : BSpline S P K C D) : Option (S × S) := do
  let lo ← b.knots.get? 0
  let hi ← b.knots.get? (← usub (← usub K 1) D)
  pure (lo, hi)

/-- src/bspline.rs:167-170 `knot_domain_clamped`. -/
def knotDomainClamped (b : BSpline S P K C D) : Option (S × S) := do
  let lo ← b.knots.get? D
  let hi ← b.knots.get? (← usub (← usub K 1) D)
  pure (lo, hi)

/-- src/bspline.rs:177-180 `knot_domain_unclamped`. -/
def knotDomainUnclamped (b : BSpline S P K C D) : Option (S × S) := do
  let lo ← b.knots.get? D
  let hi ← b.knots.get? C
  pure (lo, hi)

/-- src/bspline.rs:146-153 `knot_domain`. -/
def knotDomain (b : BSpline S P K C D) : Option (S × S) :=
  match b.knot_kind with
  | .Clamped => b.knotDomainClamped
  | .ClampedStart => b.knotDomainClampedStart
  | .ClampedEnd => b.knotDomainClampedEnd
  | .Unclamped => b.knotDomainUnclamped

/-- The `while count > 0` loop of `knot_span_start_for_t_unclamped`,
src/bspline.rs:325-339.  The outer `Option` is a panic, the inner one the
function's return type.  `count : isize` never becomes negative
(`step + 1 ≤ count`), so it is a `Nat` here. -/
def spanUnclampedLoop (knots : Arr S K) (t : S) (first count : Nat) : Option (Option Nat) :=
  if 0 < count then do
    let step := count / 2
    let it := first + step
    let k1 ← knots.get? (it + 1)
    let k2 ← usub K 2
    if Scalar.lt t k1 || (it + 1 == k2 && Scalar.eq t k1) then
      return some it
    let k0 ← knots.get? it
    if Scalar.le k0 t then
      spanUnclampedLoop knots t (it + 1) (count - (step + 1))
    else
      spanUnclampedLoop knots t first step
  else some none
termination_by count
decreasing_by all_goals omega

/-- src/bspline.rs:321-340 `knot_span_start_for_t_unclamped`. -/
def spanUnclamped (b : BSpline S P K C D) (t : S) : Option (Option Nat) :=
  spanUnclampedLoop b.knots t 0 K

/-- The binary search loop `while low <= high` of `knot_span_start_for_t_clamped`,
src/bspline.rs:355-365. -/
def spanClampedLoop (knots : Arr S K) (t : S) (low high : Nat) : Option (Option Nat) :=
  if low ≤ high then do
    let mid := (low + high) / 2
    let k0 ← knots.get? mid
    let inside ←
      if Scalar.le k0 t then do
        let k1 ← knots.get? (mid + 1)
        pure (Scalar.lt t k1)
      else pure false
    if inside then
      return some mid
    else if Scalar.lt t k0 then
      if mid = 0 then none               -- `mid - 1` underflows
      else spanClampedLoop knots t low (mid - 1)
    else
      spanClampedLoop knots t (mid + 1) high
  else some none
termination_by high + 1 - low
decreasing_by all_goals omega

/-- src/bspline.rs:347-366 `knot_span_start_for_t_clamped`. -/
def spanClamped (b : BSpline S P K C D) (t : S) : Option (Option Nat) := do
  let n ← usub C 1
  let k ← b.knots.get? (n + 1)
  if Scalar.eq t k then return some n
  spanClampedLoop b.knots t D n

/-- The binary search loop `while low <= high` of `knot_span_start_for_t_clamped_start`,
src/bspline.rs:388-399. -/
def spanClampedStartLoop (knots : Arr S K) (t : S) (low high : Nat) : Option (Option Nat) :=
  if low ≤ high then do
    let mid := (low + high) / 2
    let k0 ← knots.get? mid
    let inside ←
      if Scalar.le k0 t then do
        let k1 ← knots.get? (mid + 1)
        pure (Scalar.lt t k1)
      else pure false
    if inside then
      return some mid
    else if Scalar.lt t k0 then
      if mid = 0 then none               -- `mid - 1` underflows
      else spanClampedStartLoop knots t low (mid - 1)
    else
      spanClampedStartLoop knots t (mid + 1) high
  else some none
termination_by high + 1 - low
decreasing_by all_goals omega

/-- src/bspline.rs:368-400 `knot_span_start_for_t_clamped_start`. -/
def spanClampedStart (b : BSpline S P K C D) (t : S) : Option (Option Nat) := do
  let n ← usub C 1
  let m ← usub K 1
  let km ← b.knots.get? m
  if Scalar.eq t km then return some n
  let kp ← b.knots.get? D
  if Scalar.lt t kp || Scalar.lt km t then return none
  let high ← usub m 1
  spanClampedStartLoop b.knots t D high

/-- The binary search loop `while low <= high` of `knot_span_start_for_t_clamped_end`,
src/bspline.rs:420-431. -/
def spanClampedEndLoop (knots : Arr S K) (t : S) (low high : Nat) : Option (Option Nat) :=
  if low ≤ high then do
    let mid := (low + high) / 2
    let k0 ← knots.get? mid
    let inside ←
      if Scalar.le k0 t then do
        let k1 ← knots.get? (mid + 1)
        pure (Scalar.lt t k1)
      else pure false
    if inside then
      return some mid
    else if Scalar.lt t k0 then
      if mid = 0 then none               -- `mid - 1` underflows
      else spanClampedEndLoop knots t low (mid - 1)
    else
      spanClampedEndLoop knots t (mid + 1) high
  else some none
termination_by high + 1 - low
decreasing_by all_goals omega

/-- src/bspline.rs:402-432 `knot_span_start_for_t_clamped_end`. -/
def spanClampedEnd (b : BSpline S P K C D) (t : S) : Option (Option Nat) := do
  let n ← usub C 1
  let kn ← b.knots.get? (n + 1)
  if Scalar.eq t kn then return some n
  let k0 ← b.knots.get? 0
  if Scalar.lt t k0 || Scalar.lt kn t then return none
  spanClampedEndLoop b.knots t 0 n

/-- src/bspline.rs:307-314 `knot_span_start_for_t`. -/
def knotSpanStart (b : BSpline S P K C D) (t : S) : Option (Option Nat) :=
  match b.knot_kind with
  | .Unclamped => b.spanUnclamped t
  | .ClampedStart => b.spanClampedStart t
  | .Clamped => b.spanClamped t
  | .ClampedEnd => b.spanClampedEnd t

/-- src/bspline.rs:262-264: `for j in 0..D { d[j] = control_points[j + k - D]; }`
(the source copies `D` points, not `D + 1`). -/
def copyPoints (control_points : Arr P C) (k : Nat) (d : Arr P (D + 1)) :
    Option (Arr P (D + 1)) :=
  forRange 0 D d fun j d => do
    d.set? j (← control_points.get? (← usub (j + k) D))

/-- src/bspline.rs:282-298: the interpolation factor. -/
def alpha (knots : Arr S K) (t : S) (k r j : Nat) : Outcome S := do
  let kl ← .ofOption (do knots.get? (← usub (j + k) D))
  let kr ← .ofOption (do knots.get? (← usub (j + 1 + k) r))
  let numerator := t - kl
  let denominator := kr - kl
  let alpha : S :=
    if Scalar.lt numerator Scalar.epsilon then lit 0
    else if Scalar.lt (Scalar.abs denominator) Scalar.epsilon then lit 1
    else numerator / denominator
  if Scalar.isNaN alpha then .err .EvaluationAlphaIsNaN else pure alpha

/-- src/bspline.rs:280-302: one round `r` of de Boor's algorithm, `j` from `D`
down to `r`. -/
def deBoorRound (knots : Arr S K) (t : S) (k r : Nat) (d : Arr P (D + 1)) :
    Outcome (Arr P (D + 1)) :=
  forRangeRev r (D + 1) d fun j d => do
    let a ← alpha (D := D) knots t k r j
    let dl ← .ofOption (do d.get? (← usub j 1))
    let dj ← .ofOption (d.get? j)
    .ofOption (d.set? j (dl * (lit 1 - a) + dj * a))

/-- src/bspline.rs:241-305 `de_boor_iterative`. -/
def deBoorIterative (b : BSpline S P K C D) (t : S) : Outcome P := do
  let kC ← .ofOption (b.knots.get? C)
  if Scalar.eq t kC then
    .ofOption (do b.control_points.get? (← usub C 1))
  else
    match ← .ofOption (b.knotSpanStart t) with
    | none => .err .KnotDomainViolation
    | some k =>
      let d : Arr P (D + 1) := fun _ => Point.default
      let d ← .ofOption (copyPoints b.control_points k d)
      let d ← forRange 1 (D + 1) d fun r d => deBoorRound b.knots t k r d
      .ofOption (d.get? D)

/-- src/bspline.rs:115-129 `eval`. -/
def eval (b : BSpline S P K C D) (t : S) : Outcome P := do
  let (knot_start, knot_end) ← .ofOption b.knotDomain
  if Scalar.lt t knot_start || Scalar.lt knot_end t then
    .err .KnotDomainViolation
  else
    b.deBoorIterative t

/-- `self.eval(t).unwrap_or_else(|_| P::default())`, src/bspline.rs:449-456. -/
def evalOrDefault (b : BSpline S P K C D) (t : S) : Option P :=
  match b.eval t with
  | .ok p => some p
  | .err _ => some Point.default
  | .panic => none

/-- src/bspline.rs:436-460 `arclen`. -/
def arclen (b : BSpline S P K C D) (nsteps : Nat) : Option S := do
  let stepsize : S := lit 1 / Scalar.ofUsize nsteps
  let (kmin, kmax) ← b.knotDomain
  forRange 0 (nsteps + 1) (lit 0) fun i arclen => do
    let t := kmin + (Scalar.ofUsize i / Scalar.ofUsize nsteps) * (kmax - kmin)
    let p1 ← b.evalOrDefault t
    let p2 ← b.evalOrDefault (t + stepsize)
    pure (arclen + Scalar.sqrt (Point.squaredLength (p1 - p2)))

/-- src/bspline.rs:471-485 `derivative`.
`BSpline<P, K, {C - 1}, {D - 1}>` is only a type for `C, D ≥ 1` (const evaluation
underflows at compile time otherwise). -/
def derivative (b : BSpline S P K C D) : Option (BSpline S P K (C - 1) (D - 1)) := do
  let new_points : Arr P (C - 1) := fun _ => Point.default
  let new_points ← forBreak (fun i (new_points : Arr P (C - 1)) => do
      let p1 ← b.control_points.get? (i + 1)
      let p0 ← b.control_points.get? i
      let kr ← b.knots.get? (i + D + 1)
      let kl ← b.knots.get? (i + 1)
      let new_points ← new_points.set? i
        ((p1 - p0) * (Scalar.ofUsize D / (kr - kl) : S))
      let last ← usub C 2
      pure (i == last, new_points)) (List.range C) new_points
  pure { knots := b.knots, knot_kind := b.knot_kind, control_points := new_points }

end BSpline

end Stroke
