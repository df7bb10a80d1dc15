import Verif.Model.Cubic
import Mathlib.Data.Fin.VecNotation

/-!
# The example program: examples/plotters_cubic_bezier.rs

The numbers it hands to the plotting library.  Not modelled: the plotting library, the text and
the colours.
-/

namespace Stroke

variable {S : Type} [Scalar S]

/-- examples/plotters_cubic_bezier.rs:11-16 `cpoints`, the control points it draws. -/
def exampleControlPoints : List (S × S) :=
  [(lit 0, lit (177/100)), (lit (11/10), lit (-1)), (lit (43/10), lit 3), (lit (32/10), lit (-4))]

/-- examples/plotters_cubic_bezier.rs:19-25 `chull`, the polygon it draws. -/
def exampleHull : List (S × S) :=
  [(lit 0, lit (177/100)), (lit (11/10), lit (-1)), (lit (32/10), lit (-4)), (lit (43/10), lit 3),
    (lit 0, lit (177/100))]

/-- examples/plotters_cubic_bezier.rs:27-32 `bezier`. -/
def exampleCurve : CubicBezier (PointN S 2) :=
  CubicBezier.new ⟨![lit 0, lit (177/100)]⟩ ⟨![lit (11/10), lit (-1)]⟩ ⟨![lit (43/10), lit 3]⟩
    ⟨![lit (32/10), lit (-4)]⟩

/-- examples/plotters_cubic_bezier.rs:34-38 `bounds`, `xmin`, `xmax`, `ymin`, `ymax`. -/
def exampleBounds : Option (Arr (S × S) 2) := (exampleCurve (S := S)).boundingBox

/-- examples/plotters_cubic_bezier.rs:41-47 `bezier_graph`, the polyline it draws. -/
def exampleGraph : Option (List (S × S)) :=
  let nsteps : Nat := 1000
  forRange 0 nsteps [] fun t graph => do
    let t := Scalar.ofUsize t * lit 1 / Scalar.ofUsize nsteps
    let p := (exampleCurve (S := S)).evalCasteljau t
    pure (graph ++ [(← Point.axis p 0, ← Point.axis p 1)])

/-- examples/plotters_cubic_bezier.rs:58-61 (arguments of `build_cartesian_2d`): the ranges of the axes of the chart. -/
def exampleChart (bounds : Arr (S × S) 2) : (S × S) × (S × S) :=
  (((bounds 0).1 - lit 2, (bounds 0).1 + lit 6), ((bounds 1).1 - lit 1, (bounds 1).2 + lit 3))

/-- examples/plotters_cubic_bezier.rs:94-100: the rectangle it draws as bounding box. -/
def exampleBoxPath (bounds : Arr (S × S) 2) : List (S × S) :=
  [((bounds 0).1, (bounds 1).1), ((bounds 0).1, (bounds 1).2), ((bounds 0).2, (bounds 1).2),
    ((bounds 0).2, (bounds 1).1), ((bounds 0).1, (bounds 1).1)]

end Stroke
