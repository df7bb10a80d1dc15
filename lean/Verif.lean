import Verif.UnitTests
import Verif.Props.Point
import Verif.Props.Line
import Verif.Props.Quadratic
import Verif.Props.Cubic
import Verif.Props.Bezier
import Verif.Props.Segment
import Verif.Props.BoundingBox
import Verif.Props.Roots
import Verif.Props.ArcLength
import Verif.Props.Distance
import Verif.Props.BSpline
import Verif.Props.BSplineShape
import Verif.Props.BSplineCalculus
import Verif.Props.FloatEndpoints
import Verif.Props.FloatStability
import Verif.Props.FloatBSpline
import Verif.Props.FloatBox
import Verif.Props.BSplineSuccess
import Verif.Props.FloatBSplineEval
import Verif.Props.SplitJoin
import Verif.Props.Subdivision
import Verif.Props.FloatEval
import Verif.Props.Variation
import Verif.Props.BoxRelations
import Verif.Props.ArcLengthShape
import Verif.Props.Lipschitz
import Verif.Props.FloatPropagation
import Verif.Props.Invariance
import Verif.Props.Elevation
import Verif.Props.BSplineReparam
import Verif.Props.BSplineMaps
import Verif.Props.BSplinePieces
import Verif.Props.BSplineJoints
import Verif.Props.FloatBSplineError
import Verif.Props.FloatBoxContains
import Verif.Props.Circle
import Verif.Props.FloatSplit
import Verif.Props.RootsComplete
import Verif.Props.AnyArithmetic
import Verif.Props.FloatDistance
import Verif.Props.FloatLine
import Verif.Props.FloatRoots
import Verif.Props.Tangents
import Verif.Props.FloatDerivative
import Verif.Model.Derived
import Verif.Props.Uniqueness
import Verif.Props.Influence
import Verif.Props.ArcLengthSplit
import Verif.Props.AnyMaps
import Verif.Props.FloatMonotone
import Verif.Props.FloatArcLength
import Verif.Props.BSplineLength
import Verif.Props.Witnesses
import Verif.Props.FloatExact
import Verif.Props.ArcLengthRate
import Verif.Props.CutOrder
import Verif.Props.Culling
import Verif.Props.FloatBoxCubic
import Verif.Props.ExampleProgram
import Verif.Spec.Library
import Verif.Lemmas.CubicFormulaError
import Verif.Props.FloatRootsCubic
import Verif.Props.UserPoints
import Verif.Spec.SignedZero
import Verif.Lemmas.ScalarMaps
import Verif.Props.SignedZero
import Verif.Lemmas.IeeeLerp
import Verif.Props.FloatHull
import Verif.Props.FloatBoxPanics
import Verif.Props.FloatFlatten
import Verif.Props.FloatOrder
import Verif.Props.PolylineError
import Verif.Props.FloatReverse
import Verif.Props.BSplineLocal
import Verif.Witness.Exact
import Verif.Witness.BSpline
import Verif.Witness.Float
import Verif.Props.Easing
import Verif.Props.NoLoops
import Verif.Props.FloatContinuity
import Verif.Props.FloatBSplineSuccess
import Verif.Props.FlatBothWays
import Verif.Props.Intersect
import Verif.Props.FloatDerivativeMore
import Verif.Props.NewAny
import Verif.Props.FloatBSplineNear
import Verif.Props.BSplineUnclamped
import Verif.Repaired.Model
import Verif.Props.RepairedBSpline
import Verif.Props.RepairedCurves
import Verif.Witness.More
import Verif.Witness.MoreFloat
import Verif.Props.LengthBounds
import Verif.Props.DistanceBounds
import Verif.Props.Precision
import Verif.Model.Usize
import Verif.Props.Builds
import Verif.Props.FloatSampling
import Verif.Props.FloatWitnesses
import Verif.Props.RepairedRoots
import Verif.Lemmas.CoxDeBoorContinuity
import Verif.Props.RepairedBSplineMore
import Verif.Props.Joining
import Verif.Props.ConstantSpeed
import Verif.Props.FlatExact
import Verif.Props.Bisection
import Verif.Props.RepairedMore
import Verif.Props.FloatBSplineLength
import Verif.Props.BSplineEnds
import Verif.Props.FloatIntersect
import Verif.Props.BSplineBezier
import Verif.Props.FloatBSplineStart
import Verif.Props.BSplineLengthPanic
import Verif.Props.MovedPoints
import Verif.Props.DistanceMoved
import Verif.Props.ControlPolygon
import Verif.Props.Workarounds
import Verif.Props.FloatWorkarounds
import Verif.Props.FloatLengthBounds
import Verif.Props.FloatDistanceBounds
import Verif.Lemmas.IeeeScale
import Verif.Props.FloatScale
import Verif.Props.FloatScaleSpline
import Verif.Props.FloatScaleBox
import Verif.Props.LaterWitnesses
import Verif.Props.LengthRate
import Verif.Props.BSplineSmooth
import Verif.Props.FloatLengthRate
import Verif.Props.BSplineMonotone
import Verif.Props.BSplineInsert
import Verif.Props.BSplineVariation
import Verif.Props.BSplineUnique
import Verif.Props.BSplineConvex
import Verif.Props.BSplineChord
import Verif.Props.BSplinePolygon
import Verif.Props.BSplineRefine
import Verif.Props.BSplineInfluence
import Verif.Props.BSplineChain
import Verif.Props.Graphs
import Verif.Props.BSplineReverse
import Verif.Props.MeanPoint
import Verif.Props.Areas
import Verif.Props.ApproxRate
