import Verif.Arith
import Verif.Lemmas.AreaMeasure
import Verif.Lemmas.BFill
import Verif.Lemmas.BinProblemGrid
import Verif.Lemmas.BoundingCircle
import Verif.Lemmas.CDECollect
import Verif.Lemmas.CDEGeo
import Verif.Lemmas.CDEInv
import Verif.Lemmas.CDEQuery
import Verif.Lemmas.CDEReach
import Verif.Lemmas.CDERestore
import Verif.Lemmas.Centroid
import Verif.Lemmas.CircleGeo
import Verif.Lemmas.Compose
import Verif.Lemmas.DebugCDE
import Verif.Lemmas.DebugGrid
import Verif.Lemmas.DebugLayout
import Verif.Lemmas.DebugProblem
import Verif.Lemmas.DebugTree
import Verif.Lemmas.Digits
import Verif.Lemmas.Distances
import Verif.Lemmas.EdgeGeo
import Verif.Lemmas.Grid
import Verif.Lemmas.GridGen
import Verif.Lemmas.GridTall
import Verif.Lemmas.HPG
import Verif.Lemmas.HPGCover
import Verif.Lemmas.HPGExact
import Verif.Lemmas.HPGFill
import Verif.Lemmas.HPGGeo
import Verif.Lemmas.HPGKnown
import Verif.Lemmas.HPGMetric
import Verif.Lemmas.HPGReach
import Verif.Lemmas.HPGRect
import Verif.Lemmas.HPGTidy
import Verif.Lemmas.HPGTotal
import Verif.Lemmas.Hull
import Verif.Lemmas.Jordan
import Verif.Lemmas.JsonExamples
import Verif.Lemmas.LBF
import Verif.Lemmas.LBFBest
import Verif.Lemmas.LBFGrid
import Verif.Lemmas.LBFGridSkip
import Verif.Lemmas.LBFGridStrip
import Verif.Lemmas.LBFGridTotal
import Verif.Lemmas.LBFGridTwin
import Verif.Lemmas.LBFRun
import Verif.Lemmas.LBFStrip
import Verif.Lemmas.Layout
import Verif.Lemmas.LayoutGrid
import Verif.Lemmas.Measured
import Verif.Lemmas.Parity
import Verif.Lemmas.Parser
import Verif.Lemmas.Perturb
import Verif.Lemmas.PierChoice
import Verif.Lemmas.PierRays
import Verif.Lemmas.Piers
import Verif.Lemmas.Poi
import Verif.Lemmas.Poles
import Verif.Lemmas.Poles2
import Verif.Lemmas.PolyBasic
import Verif.Lemmas.PolyCollides
import Verif.Lemmas.PolyNew
import Verif.Lemmas.PolyReject
import Verif.Lemmas.PrimitiveExtra
import Verif.Lemmas.Problem
import Verif.Lemmas.ProblemGrid
import Verif.Lemmas.ProblemRestore
import Verif.Lemmas.ProblemRun
import Verif.Lemmas.ProblemSol
import Verif.Lemmas.QTAddr
import Verif.Lemmas.QTCanon
import Verif.Lemmas.QTCollect
import Verif.Lemmas.QTConstrict
import Verif.Lemmas.QTGeo
import Verif.Lemmas.QTGeo2
import Verif.Lemmas.QTQuery
import Verif.Lemmas.QTShape
import Verif.Lemmas.QTVec
import Verif.Lemmas.RayDir
import Verif.Lemmas.Rebuild
import Verif.Lemmas.RectGeo
import Verif.Lemmas.RectGeo2
import Verif.Lemmas.RectPoly
import Verif.Lemmas.Regions
import Verif.Lemmas.RoundedDecided
import Verif.Lemmas.RoundedEngine
import Verif.Lemmas.RoundedGeo
import Verif.Lemmas.RoundedObjects
import Verif.Lemmas.RoundedPlacement
import Verif.Lemmas.RoundedPoly
import Verif.Lemmas.RoundedTree
import Verif.Lemmas.SelfCheck
import Verif.Lemmas.SimpleArea
import Verif.Lemmas.SimpleCheck
import Verif.Lemmas.SimpleConv
import Verif.Lemmas.SimpleCut
import Verif.Lemmas.SimpleInside
import Verif.Lemmas.SimplePoly
import Verif.Lemmas.SimpleStep
import Verif.Lemmas.SimpleTri
import Verif.Lemmas.Simplify
import Verif.Lemmas.SlotMap
import Verif.Lemmas.Strip
import Verif.Lemmas.StripGeo
import Verif.Lemmas.Svg
import Verif.Lemmas.SvgTree
import Verif.Lemmas.Tolerance
import Verif.Lemmas.TolerancePoly
import Verif.Lemmas.ToleranceRun
import Verif.Lemmas.ToleranceTree
import Verif.Lemmas.Transf
import Verif.Lemmas.Trial
import Verif.Lemmas.TrialRounded
import Verif.Lemmas.TrialStrip
import Verif.Lemmas.Twin
import Verif.Lemmas.TwinParse
import Verif.Lemmas.TwinRun
import Verif.Lemmas.TwinStrip
import Verif.Lemmas.TwinSvg
import Verif.Lemmas.Usage
import Verif.Lemmas.UsageFile
import Verif.Model.BinProblemGrid
import Verif.Model.CDE
import Verif.Model.Debug
import Verif.Model.DebugGrid
import Verif.Model.Distances
import Verif.Model.FailFast
import Verif.Model.Geometry
import Verif.Model.Grid
import Verif.Model.HPG
import Verif.Model.Hazard
import Verif.Model.HullShapes
import Verif.Model.LBF
import Verif.Model.LBFGrid
import Verif.Model.Layout
import Verif.Model.LayoutGrid
import Verif.Model.Main
import Verif.Model.MainGrid
import Verif.Model.Parser
import Verif.Model.Piers
import Verif.Model.Polygon
import Verif.Model.PrintLayout
import Verif.Model.Problem
import Verif.Model.ProblemEnum
import Verif.Model.ProblemGrid
import Verif.Model.QTHazard
import Verif.Model.QTHazardVec
import Verif.Model.QTNode
import Verif.Model.SelfCheck
import Verif.Model.Simplify
import Verif.Model.SlotMap
import Verif.Model.Svg
import Verif.Model.Transformation
import Verif.Prelude
import Verif.Props.BinProblemGrid
import Verif.Props.Centered
import Verif.Props.Collision
import Verif.Props.Compose
import Verif.Props.Debug
import Verif.Props.DebugGrid
import Verif.Props.Distances
import Verif.Props.Engine
import Verif.Props.Grid
import Verif.Props.GridGen
import Verif.Props.HPG
import Verif.Props.HPGCover
import Verif.Props.HPGExact
import Verif.Props.HPGRect
import Verif.Props.HPGTotal
import Verif.Props.Hull
import Verif.Props.HullShapes
import Verif.Props.LBF
import Verif.Props.LBFBest
import Verif.Props.LBFGrid
import Verif.Props.LBFGridRun
import Verif.Props.LBFGridSkip
import Verif.Props.LBFGridSkipStrip
import Verif.Props.Layout
import Verif.Props.LayoutGrid
import Verif.Props.Parser
import Verif.Props.Piers
import Verif.Props.PoleOrder
import Verif.Props.Poles
import Verif.Props.Primitives
import Verif.Props.PrintLayout
import Verif.Props.Problem
import Verif.Props.ProblemEnum
import Verif.Props.ProblemGrid
import Verif.Props.QTShape
import Verif.Props.Quadtree
import Verif.Props.Queries
import Verif.Props.Rebuild
import Verif.Props.Reproducible
import Verif.Props.ReproduciblePictures
import Verif.Props.RoundedEngine
import Verif.Props.RoundedGeo
import Verif.Props.RoundedPlacement
import Verif.Props.Rounding
import Verif.Props.Run
import Verif.Props.SelfCheck
import Verif.Props.Simplify
import Verif.Props.SimplifySafe
import Verif.Props.Solution
import Verif.Props.Strip
import Verif.Props.Supplements
import Verif.Props.Svg
import Verif.Props.SvgSurrogate
import Verif.Props.Tolerance
import Verif.Props.ToleranceCheck
import Verif.Props.ToleranceCompose
import Verif.Props.ToleranceQuick
import Verif.Props.ToleranceRun
import Verif.Props.Transform
import Verif.Props.Trial
import Verif.Props.TrialStrip
import Verif.Props.TrialStripEx
import Verif.Props.TrialTurn
import Verif.Props.Usage
import Verif.Spec.Area
import Verif.Spec.BinProblemGrid
import Verif.Spec.Built
import Verif.Spec.Debug
import Verif.Spec.Digits
import Verif.Spec.Distance
import Verif.Spec.Engine
import Verif.Spec.Examples
import Verif.Spec.FailFast
import Verif.Spec.FailFastExamples
import Verif.Spec.HPG
import Verif.Spec.HPGExact
import Verif.Spec.HPGExactExamples
import Verif.Spec.HPGExamples
import Verif.Spec.HPGTotal
import Verif.Spec.HazardRegion
import Verif.Spec.Json
import Verif.Spec.JsonExamples
import Verif.Spec.LBF
import Verif.Spec.LBFExamples
import Verif.Spec.LBFGrid
import Verif.Spec.LBFTrace
import Verif.Spec.Layout
import Verif.Spec.LayoutExamples
import Verif.Spec.LayoutGrid
import Verif.Spec.Main
import Verif.Spec.Motion
import Verif.Spec.Perturb
import Verif.Spec.Piers
import Verif.Spec.Problem
import Verif.Spec.ProblemEnum
import Verif.Spec.ProblemExamples
import Verif.Spec.ProblemGrid
import Verif.Spec.QTShape
import Verif.Spec.Rebuild
import Verif.Spec.RebuildExamples
import Verif.Spec.Region
import Verif.Spec.RoundedEngine
import Verif.Spec.RoundedGeo
import Verif.Spec.RoundedPlacement
import Verif.Spec.Rounding
import Verif.Spec.Sets
import Verif.Spec.Simple
import Verif.Spec.Simplify
import Verif.Spec.Strip
import Verif.Spec.StripExamples
import Verif.Spec.Svg
import Verif.Spec.SvgExamples
import Verif.Spec.Tolerance
import Verif.Spec.ToleranceCheck
import Verif.Spec.ToleranceRun
import Verif.Spec.Trial
import Verif.Spec.TrialStrip
import Verif.Spec.Twin
import Verif.Spec.Usage
