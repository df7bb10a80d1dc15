/-!
# Scalars, panics, arrays and loops

The Rust crate is generic over a float type.  `Scalar S` lists the float
operations the crate uses; the model is written once, against this class, and
instantiated later (exact real arithmetic, rounded arithmetic, Lean's `Float`).

Conventions of the whole model:
* `none : Option _` is a panic.
* `Outcome.panic` is a panic in code that can also return a `BSplineError`.
-/

namespace Stroke

/-- The float operations used by the crate.
Models the bounds on `Point::Scalar` (src/point.rs:23-32, `num_traits::Float`,
`From/Into<NativeFloat>`, mixed arithmetic with `NativeFloat`) and the constants
`EPSILON` (src/lib.rs:63-72).
Simplification: `P::Scalar` and `NativeFloat` are the same type `S`, so the
`.into()`/`from()` conversions are identities.  This is the case for
`PointN<f64, N>` on 64-bit targets (src/point_generic.rs:161). -/
class Scalar (S : Type) extends Add S, Sub S, Mul S, Div S, Neg S where
  /-- float literals such as `0.5` -/
  lit : Rat → S
  /-- `n as NativeFloat` for `n : usize` -/
  ofUsize : Nat → S
  /-- `PartialOrd::lt` (`a > b` is `lt b a`) -/
  lt : S → S → Bool
  /-- `PartialOrd::le` (`a >= b` is `le b a`) -/
  le : S → S → Bool
  /-- `PartialEq::eq` -/
  eq : S → S → Bool
  abs : S → S
  sqrt : S → S
  cos : S → S
  acos : S → S
  signum : S → S
  powf : S → S → S
  isNaN : S → Bool
  /-- `EPSILON` and `P::Scalar::epsilon()`, src/lib.rs:66 -/
  epsilon : S

export Scalar (lit)

/-- `PartialOrd::partial_cmp` of floats (core library; called at src/quadratic_bezier.rs:320 and
src/cubic_bezier.rs:401): `None` exactly for unordered (NaN) operands. -/
def partialCmp {S : Type} [Scalar S] (a b : S) : Option Ordering :=
  if Scalar.lt a b then some .lt
  else if Scalar.eq a b then some .eq
  else if Scalar.lt b a then some .gt
  else none

/-- One insertion step of `sort_unstable_by(|a, b| a.partial_cmp(b).unwrap())`
(src/quadratic_bezier.rs:320, src/cubic_bezier.rs:401). -/
def insertSorted {S : Type} [Scalar S] (x : S) : List S → Option (List S)
  | [] => some [x]
  | y :: ys =>
    match partialCmp x y with
    | none => none                    -- `unwrap()` on `None`
    | some .gt => (insertSorted x ys).map (y :: ·)
    | some _ => some (x :: y :: ys)

/-- `extrema.sort_unstable_by(|a, b| a.partial_cmp(b).unwrap())`
(src/quadratic_bezier.rs:320, src/cubic_bezier.rs:401).
Simplification: modelled as an insertion sort (what `core` uses on slices this
short); the result of sorting does not depend on the algorithm, and any
comparison sort of two or more elements compares every element at least once,
hence panics exactly when one of them is NaN. -/
def sortUnwrap {S : Type} [Scalar S] : List S → Option (List S)
  | [] => some []
  | x :: xs => (sortUnwrap xs).bind (insertSorted x)

/-- `ArrayVec::push` (tinyvec; called at src/line.rs:97, src/quadratic_bezier.rs:179-189, 287,
317-318, src/cubic_bezier.rs:280-326, 358, 398-399, src/roots.rs:36-118): panics when the fixed
capacity is exceeded. -/
def avPush {α : Type} (cap : Nat) (l : List α) (x : α) : Option (List α) :=
  if l.length < cap then some (l ++ [x]) else none

/-- `ArrayVec::extend` (tinyvec; called at src/quadratic_bezier.rs:309, src/cubic_bezier.rs:386):
pushes one after the other. -/
def avExtend {α : Type} (cap : Nat) (l xs : List α) : Option (List α) :=
  xs.foldlM (avPush cap) l

/-- `usize` subtraction (for instance src/bezier.rs:78, src/bspline.rs:263, 282-283): panics on
underflow (overflow checks on). -/
def usub (a b : Nat) : Option Nat :=
  if b ≤ a then some (a - b) else none

/-- Rust arrays `[α; n]` (for instance src/bezier.rs:24, src/bspline.rs:258). -/
abbrev Arr (α : Type) (n : Nat) : Type := Fin n → α

/-- Checked indexing `a[i]` (for instance src/bezier.rs:79, src/bspline.rs:263): panics out of
bounds. -/
def Arr.get? {α : Type} {n : Nat} (a : Arr α n) (i : Nat) : Option α :=
  if h : i < n then some (a ⟨i, h⟩) else none

/-- Checked array update `a[i] = v` (for instance src/bezier.rs:79, src/bspline.rs:263): panics out
of bounds. -/
def Arr.set? {α : Type} {n : Nat} (a : Arr α n) (i : Nat) (v : α) : Option (Arr α n) :=
  if i < n then some (fun k => if k.val = i then v else a k) else none

/-- Iteration over an array, in order (for instance src/bezier.rs:40-42, src/bspline.rs:132-139). -/
def Arr.toList {α : Type} {n : Nat} (a : Arr α n) : List α := List.ofFn a

/-- `for i in lo..hi { body }` (for instance src/bezier.rs:77-81, 94-102) threading the mutable
state `s`. -/
def forRange {m : Type → Type} [Monad m] {σ : Type} (lo hi : Nat) (s : σ)
    (body : Nat → σ → m σ) : m σ :=
  (List.range' lo (hi - lo)).foldlM (fun s i => body i s) s

/-- `for i in (lo..hi).rev() { body }` (src/bspline.rs:280). -/
def forRangeRev {m : Type → Type} [Monad m] {σ : Type} (lo hi : Nat) (s : σ)
    (body : Nat → σ → m σ) : m σ :=
  (List.range' lo (hi - lo)).reverse.foldlM (fun s i => body i s) s

/-- A loop over the indices `is` whose body may `break` (returning `true`), as in
src/bezier.rs:158-164 and src/bspline.rs:473-480. -/
def forBreak {m : Type → Type} [Monad m] {σ : Type} (body : Nat → σ → m (Bool × σ)) :
    List Nat → σ → m σ
  | [], s => pure s
  | i :: is, s => do
    let (brk, s') ← body i s
    if brk then pure s' else forBreak body is s'

end Stroke
