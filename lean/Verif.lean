import Verif.Py
import Verif.Calc
import Verif.VectorOps
import Verif.Line2d
import Verif.Transform
import Verif.Primitives
import Verif.Collapse
import Verif.Queue
import Verif.Events.Lib
import Verif.Events.Flip
import Verif.Events.Parallel
import Verif.Events.Edge
import Verif.Events.Split
import Verif.Events.Check
import Verif.Events.Loop
import Verif.Regression
import Verif.Offsets
import Verif.Props.Calc
import Verif.Props.RSquared
import Verif.Props.Vector
import Verif.Props.Line2d
import Verif.Props.Transform
import Verif.Props.CollapseTimes
import Verif.Props.CollapseEvents
import Verif.Props.Primitives
import Verif.Props.Queue
import Verif.Props.Growth
import Verif.Props.Loop
import Verif.Props.UpdateCirc
import Verif.Props.Stop
import Verif.Props.NewVertex
import Verif.Props.Flip
import Verif.Props.Fan
import Verif.Props.Invariants
import Verif.Props.Regression
import Verif.Props.Offsets
import Verif.Initialize
import Verif.Props.Star
import Verif.Props.Initialize
import Verif.CalcSkel
import Verif.Props.CalcSkel
import Verif.Props.Wavefronts
import Verif.Proofs.MeshOnly
import Verif.Spec.Handlers
import Verif.Proofs.HandlerLemmas
import Verif.Props.Handlers
import Verif.Proofs.MeshLemmas
import Verif.Proofs.MeshHandlers
import Verif.Proofs.MeshCheck
import Verif.Props.Mesh
import Verif.Props.Earliest
import Verif.Spec.Freshness
import Verif.Proofs.FreshQueue
import Verif.Proofs.Aloof
import Verif.Proofs.FreshFan
import Verif.Proofs.FreshEvents
import Verif.Props.Freshness
import Verif.Proofs.MeshSteps
import Verif.Proofs.FrontLemmas
import Verif.Proofs.FrontSplit
import Verif.Proofs.FrontFlip
import Verif.Spec.Links
import Verif.Proofs.LinkSteps
import Verif.Proofs.LinkRun
import Verif.Proofs.LinkCheck
import Verif.Props.Links
import Verif.Proofs.InitMesh
import Verif.Props.InitMesh
import Verif.Spec.Within
import Verif.Proofs.Within
import Verif.Props.Within
import Verif.Spec.Forest
import Verif.Proofs.Trails
import Verif.Proofs.ForestSteps
import Verif.Proofs.ForestFlip
import Verif.Proofs.ForestEdge
import Verif.Proofs.ForestRun
import Verif.Props.Forest
import Verif.Spec.Parallel
import Verif.Proofs.Still
import Verif.Proofs.ParallelLemmas
import Verif.Props.Parallel
import Verif.Spec.Checks
import Verif.Props.Checks
import Verif.Spec.Anchors
import Verif.Proofs.AnchorLemmas
import Verif.Proofs.AnchorRun
import Verif.Proofs.AnchorInit
import Verif.Props.Anchors
import Verif.Spec.Orientation
import Verif.Proofs.OrientationLemmas
import Verif.Proofs.OrientationRoots
import Verif.Props.Orientation
import Verif.Spec.Upright
import Verif.Proofs.UprightSteps
import Verif.Proofs.UprightRun
import Verif.Props.Upright
import Verif.Spec.Meetings
import Verif.Proofs.Meetings
import Verif.Props.Meetings
import Verif.Inout
import Verif.Spec.Picture
import Verif.Props.Inout
import Verif.Helpers
import Verif.Props.Helpers
import Verif.Spec.Sharp
import Verif.Proofs.SharpImmediate
import Verif.Proofs.SharpSteps
import Verif.Proofs.SharpRun
import Verif.Proofs.SharpExact
import Verif.Props.Sharp
import Verif.Proofs.InitTotal
import Verif.Proofs.InitTotalLinks
import Verif.Props.InitTotal
import Verif.Props.Ambiguity
import Verif.Spec.Progress
import Verif.Proofs.Safe
import Verif.Proofs.ProgressFan
import Verif.Proofs.SafeBlocks
import Verif.Proofs.SafeSides
import Verif.Proofs.SafeEdge
import Verif.Proofs.SafeHandleEdge
import Verif.Proofs.SafeSplit
import Verif.Proofs.SafeHandlers
import Verif.Proofs.ReadyRun
import Verif.Proofs.ProgressRun
import Verif.Proofs.GenericCheck
import Verif.Props.Progress
import Verif.Spec.Cubic
import Verif.Proofs.Cubic
import Verif.Proofs.CubicCount
import Verif.Props.Cubic
import Verif.Spec.Tree
import Verif.Proofs.Tree
import Verif.Props.Tree
import Verif.Spec.General
import Verif.Proofs.RideRun
import Verif.Proofs.GeneralRun
import Verif.Props.General
import Verif.Spec.Inward
import Verif.Proofs.InwardSteps
import Verif.Proofs.InwardInit
import Verif.Proofs.InwardRun
import Verif.Proofs.InwardEnd
import Verif.Props.Inward
import Verif.Spec.Ending
import Verif.Proofs.FlatSteps
import Verif.Proofs.FlatRun
import Verif.Proofs.EndLoop
import Verif.Props.Ending
import Verif.Props.Notch
import Verif.Spec.Simple
import Verif.Proofs.Euler
import Verif.Props.Polygon
import Verif.Proofs.Since
import Verif.Spec.Rings
import Verif.Proofs.Rings
import Verif.Props.Rings
import Verif.Spec.Area
import Verif.Proofs.Area
import Verif.Props.Area
import Verif.Spec.Cover
import Verif.Proofs.Cover
import Verif.Props.Cover
import Verif.Proofs.Disjoint
import Verif.Props.Simple
import Verif.Proofs.Apart
import Verif.Proofs.Around
import Verif.Props.Planar
import Verif.Spec.Roof
import Verif.Proofs.Roof
import Verif.Props.Roof
import Verif.Spec.Arrive
import Verif.Proofs.Onward
import Verif.Proofs.Sweep
import Verif.Proofs.Nodes
import Verif.Props.Nodes
import Verif.Props.BothOffsets
import Verif.Proofs.Lifespan
import Verif.Spec.Drawing
import Verif.Props.Drawing
import Verif.Proofs.Blind
import Verif.Spec.Similar
import Verif.Props.Similar
import Verif.Spec.Ids
import Verif.Props.Ids
import Verif.Proofs.Paired
import Verif.Props.Untied
import Verif.Props.Depth
import Verif.Spec.Convex
import Verif.Props.Convex
import Verif.Props.ConvexSame
import Verif.Spec.Turn
import Verif.Spec.Order
import Verif.Props.Order
import Verif.Props.Turn
import Verif.Props.MappedBack
import Verif.Spec.Label
import Verif.Props.Label
