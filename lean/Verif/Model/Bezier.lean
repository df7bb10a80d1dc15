import Verif.Model.Point

/-!
# src/bezier.rs (curves of arbitrary degree)
-/

namespace Stroke

/-- src/bezier.rs:19-25 `Bezier<P, N>`. -/
structure Bezier (P : Type) (N : Nat) where
  control_points : Arr P N

namespace Bezier

variable {S P : Type} [Scalar S] [Point S P] {N : Nat}

/-- src/bezier.rs:62-64 `new`. -/
def new (control_points : Arr P N) : Bezier P N := ⟨control_points⟩

/-- src/bezier.rs:66-68 `control_points`. -/
def controlPoints (b : Bezier P N) : Arr P N := b.control_points

/-- src/bezier.rs:36-43 `IntoIterator for Bezier`. -/
def intoIter (b : Bezier P N) : List P := b.control_points.toList

/-- src/bezier.rs:45-52 `IntoIterator for &mut Bezier`: running `f i` on the `i`-th
item of the mutable iterator, for every `i`, in order. -/
def iterMut (b : Bezier P N) (f : Nat → P → P) : Bezier P N :=
  ⟨fun i => f i.val (b.control_points i)⟩

/-- src/bezier.rs:72-83 `eval` (and 31-33, the `Spline` trait method). -/
def eval (b : Bezier P N) (t : S) : Option P := do
  let p ← forRange 1 (N + 1) b.control_points fun i p => do
    let n ← usub N i
    forRange 0 n p fun j p => do
      let a ← p.get? j
      let b ← p.get? (j + 1)
      p.set? j (a * (-t + lit 1) + b * t)
  p.get? 0

/-- src/bezier.rs:89-118 `distance_to_point`.  The state of both loops is
`(tmin, dmin)`. -/
def distanceToPoint (b : Bezier P N) (point : P) : Option S := do
  let nsteps : Nat := 64
  let first ← b.control_points.get? 0
  let s : S × S := (lit (1/2), Point.squaredLength (point - first))
  -- 1. coarse pass (lines 94-104)
  let s ← forRange 0 nsteps s fun i s => do
    let t := Scalar.ofUsize i * lit 1 / Scalar.ofUsize nsteps
    let candidate ← b.eval t
    if Scalar.lt (Point.squaredLength (candidate - point)) s.2 then
      pure (t, Point.squaredLength (candidate - point))
    else pure s
  -- 2. fine pass (lines 106-116); `tmin` becomes the offset `t`, as in the source
  let s ← forRange 0 nsteps s fun i s => do
    let t := Scalar.ofUsize i * lit 1 / Scalar.ofUsize (nsteps * nsteps)
    let candidate ← b.eval (s.1 + t - t * (Scalar.ofUsize nsteps / lit 2))
    if Scalar.lt (Point.squaredLength (candidate - point)) s.2 then
      pure (t, Point.squaredLength (candidate - point))
    else pure s
  pure (Scalar.sqrt s.2)

/-- src/bezier.rs:120-148 `split`.  The state is `(left, right, casteljau_points)`. -/
def split (b : Bezier P N) (t : S) : Option (Bezier P N × Bezier P N) := do
  let (left, right, _) ← forRange 1 (N + 1)
    (b.control_points, b.control_points, b.control_points)
    fun i (left, right, casteljau_points) => do
      let left ← left.set? (← usub i 1) (← casteljau_points.get? 0)
      let k ← usub N i
      let right ← right.set? k (← casteljau_points.get? k)
      let n ← usub N i
      let casteljau_points ← forRange 0 n casteljau_points fun j casteljau_points => do
        let a ← casteljau_points.get? j
        let b ← casteljau_points.get? (j + 1)
        casteljau_points.set? j (a * (-t + lit 1) + b * t)
      pure (left, right, casteljau_points)
  pure (⟨left⟩, ⟨right⟩)

/-- src/bezier.rs:156-166 `derivative`.
`Bezier<P, { N - 1 }>` is only a type for `N ≥ 1` (const evaluation of `N - 1`
underflows at compile time otherwise). -/
def derivative (b : Bezier P N) : Option (Bezier P (N - 1)) := do
  let new_points : Arr P (N - 1) := fun _ => Point.default
  let new_points ← forBreak (fun i (new_points : Arr P (N - 1)) => do
      let p1 ← b.control_points.get? (i + 1)
      let p0 ← b.control_points.get? i
      let new_points ← new_points.set? i ((p1 - p0) * (Scalar.ofUsize (N - 1) : S))
      let last ← usub N 2
      pure (i == last, new_points)) (List.range N) new_points
  pure (new new_points)

/-- src/bezier.rs:241-252 `arclen` (the loop runs over `1..nsteps`). -/
def arclen (b : Bezier P N) (nsteps : Nat) : Option S :=
  let stepsize : S := lit 1 / Scalar.ofUsize nsteps
  forRange 1 nsteps (lit 0) fun t arclen => do
    let t := Scalar.ofUsize t * lit 1 / Scalar.ofUsize nsteps
    let p1 ← b.eval t
    let p2 ← b.eval (t + stepsize)
    pure (arclen + Scalar.sqrt (Point.squaredLength (p1 - p2)))

end Bezier

end Stroke
