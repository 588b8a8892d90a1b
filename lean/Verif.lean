import Verif.Ground.Basic
import Verif.Spec.PointSet
import Verif.Spec.Geometry
import Verif.Model.Geometry
import Verif.Model.Unpacking
import Verif.Model.Segments
import Verif.Lemmas.PointSet
import Verif.Lemmas.Relation
import Verif.Lemmas.Intersection
import Verif.Lemmas.Segments
import Verif.Lemmas.Pieces
import Verif.Lemmas.RelationUnique
import Verif.Lemmas.SegmentOps
import Verif.Lemmas.MultisegmentOps
import Verif.Properties.Ground
import Verif.Properties.Segments
import Verif.Properties.Multisegments
import Verif.Properties.Unpacking
import Verif.Model.Bounding
import Verif.Lemmas.Bounding
import Verif.Properties.Bounding
import Verif.Lemmas.Flags.Parity
import Verif.Lemmas.Flags.Core
import Verif.Lemmas.Flags.Laws
import Verif.Lemmas.Sweep.Basic
import Verif.Lemmas.Sweep.Inv
import Verif.Lemmas.Sweep.Steps
import Verif.Lemmas.Sweep.Steps2
import Verif.Model.Event
import Verif.Model.EventsQueue
import Verif.Model.SweepLine
import Verif.Model.Sweep
import Verif.Model.Linear
import Verif.Lemmas.Sweep.Shear
import Verif.Lemmas.Sweep.Order
import Verif.Lemmas.Sweep.Heap
import Verif.Lemmas.Sweep.Detect
import Verif.Lemmas.Sweep.State
import Verif.Lemmas.Sweep.Queue
import Verif.Lemmas.Sweep.Process
import Verif.Lemmas.Sweep.Loop
import Verif.Lemmas.Sweep.Init
import Verif.Lemmas.Sweep.Final
import Verif.Lemmas.Runs
import Verif.Lemmas.LinearSweep
import Verif.Lemmas.LinearResult
import Verif.Lemmas.LinearComplete
import Verif.Model.Planar
import Verif.Properties.Linear
import Verif.Properties.Sweep
import Verif.Model.Tree
import Verif.Spec.Arrangement
import Verif.Lemmas.Arrangement
import Verif.Properties.Arrangement
import Verif.Lemmas.Flags.Update
import Verif.Lemmas.Flags.Left
import Verif.Lemmas.Flags.Step
import Verif.Lemmas.Flags.Run
import Verif.Spec.Region
import Verif.Lemmas.Flags.Region
import Verif.Lemmas.Flags.End
import Verif.Lemmas.Region.Const
import Verif.Model.Contours
import Verif.Model.BoundingShaped
import Verif.Model.Mixed
import Verif.Spec.Polygon
import Verif.Lemmas.Region.Union
import Verif.Lemmas.Region.Vertex
import Verif.Lemmas.Mixed.Core
import Verif.Lemmas.Mixed.Sets
import Verif.Lemmas.Mixed.Complete
import Verif.Lemmas.Region.Oriented
import Verif.Lemmas.Region.Polygon
import Verif.Lemmas.Region.Local
import Verif.Lemmas.Region.Square
import Verif.Properties.Oriented
import Verif.Spec.Orient
import Verif.Lemmas.BoundingShaped
import Verif.Lemmas.Region.Linked
import Verif.Lemmas.Region.Jordan
import Verif.Lemmas.Coupled
import Verif.Model.PlanarMixed
import Verif.Lemmas.Mixed.Result
import Verif.Properties.BoundingShaped
import Verif.Properties.Mixed
import Verif.Spec.Overlay
import Verif.Lemmas.Region.Overlay
import Verif.Lemmas.Region.OverlayDegree
import Verif.Lemmas.Region.OverlayBoundary
import Verif.Model.Shaped
import Verif.Model.Holeless
import Verif.Model.Holey
import Verif.Lemmas.Shaped.Core
import Verif.Lemmas.Shaped.Select
import Verif.Lemmas.Shaped.Operands
import Verif.Properties.Shaped
import Verif.Lemmas.Plane.Side
import Verif.Lemmas.Plane.Theta
import Verif.Lemmas.Plane.Darts
import Verif.Lemmas.Plane.Cyclic
import Verif.Lemmas.Plane.Way
import Verif.Lemmas.Plane.Walk
import Verif.Lemmas.Plane.Traced
import Verif.Lemmas.Plane.Start
import Verif.Lemmas.Plane.Laminar
import Verif.Lemmas.Plane.Nesting
import Verif.Lemmas.Shaped.Connectivity
import Verif.Lemmas.Shaped.Graph
import Verif.Lemmas.Shaped.Trace
import Verif.Spec.Shrink
import Verif.Lemmas.Region.Shrink
import Verif.Lemmas.Region.Shrunk
import Verif.Lemmas.Region.Check
import Verif.Properties.Shrink
import Verif.Lemmas.Shaped.Contours
import Verif.Lemmas.Shaped.Tracing
import Verif.Lemmas.Region.Direction
import Verif.Lemmas.Shaped.Assemble
import Verif.Lemmas.Below.Data
import Verif.Lemmas.Below.Left
import Verif.Lemmas.Below.Inv
import Verif.Lemmas.Below.Step
import Verif.Lemmas.Below.Run
import Verif.Lemmas.Below.End
import Verif.Spec.Outline
import Verif.Model.PlanarShaped
import Verif.Lemmas.Shaped.Result
import Verif.Lemmas.Region.Triangle
import Verif.Properties.Polygons
import Verif.Spec.Touch
import Verif.Lemmas.Below.Touch
import Verif.Lemmas.Below.Cutting
import Verif.Lemmas.Below.Under
import Verif.Lemmas.Below.Fresh
import Verif.Lemmas.Below.Chain
import Verif.Lemmas.Below.Parity
import Verif.Lemmas.Shaped.Nested
import Verif.Lemmas.Shaped.Valid
import Verif.Lemmas.Region.Dense
import Verif.Lemmas.Shaped.Exact
import Verif.Properties.PolygonsExact
import Verif.Lemmas.Flags.Marks
import Verif.Lemmas.Shaped.Marks
import Verif.Lemmas.Region.Closed
import Verif.Spec.Complete
import Verif.Lemmas.Shaped.Complete
import Verif.Lemmas.Shaped.CompleteResult
import Verif.Properties.Complete
import Verif.Lemmas.Plane.Solid
import Verif.Lemmas.Shaped.Regions
import Verif.Lemmas.Shaped.RegionsValid
import Verif.Lemmas.Shaped.Filling
import Verif.Lemmas.Shaped.RegionsResult
import Verif.Spec.Regions
import Verif.Properties.Regions
import Verif.Properties.Tracing
import Verif.Model.RedBlack
import Verif.Model.Nary
import Verif.Lemmas.Nary.Detect
import Verif.Lemmas.Nary.General
import Verif.Lemmas.Nary.Exact
import Verif.Lemmas.Nary.Runs
import Verif.Properties.Nary
import Verif.Lemmas.Region.Wedge
import Verif.Properties.PolygonsHole
import Verif.Lemmas.Shaped.Twin
import Verif.Lemmas.Shaped.TwinEnd
import Verif.Lemmas.Shaped.TwinSweep
import Verif.Lemmas.Shaped.Sorted
import Verif.Lemmas.Shaped.TwinComplete
import Verif.Lemmas.Shaped.TwinResult
import Verif.Lemmas.Shaped.TwinRegions
import Verif.Lemmas.Shaped.TwinForm
import Verif.Properties.Determinism
import Verif.Spec.Normal
import Verif.Lemmas.Shaped.Normal
import Verif.Properties.Normal
import Verif.Model.Numbered
import Verif.Lemmas.Shaped.Numbered
import Verif.Properties.Numbered
import Verif.Lemmas.Sweep.Ties
import Verif.Lemmas.Ties
import Verif.Properties.Ties
import Verif.Lemmas.Below.Passing
import Verif.Lemmas.Below.Stale
import Verif.Lemmas.Below.StaleRun
import Verif.Lemmas.Below.Compare
import Verif.Lemmas.Below.Ended
import Verif.Lemmas.Below.Through
import Verif.Lemmas.Below.Few
import Verif.Lemmas.Below.FewParity
import Verif.Lemmas.Shaped.Detached
import Verif.Properties.Detached
import Verif.Lemmas.Shaped.Empty
import Verif.Properties.Empty
import Verif.Spec.Corner
import Verif.Lemmas.Shaped.Corners
import Verif.Lemmas.Shaped.Crossless
import Verif.Lemmas.Shaped.CornersResult
import Verif.Properties.Corners
import Verif.Spec.Written
import Verif.Lemmas.Shaped.Written
import Verif.Lemmas.Shaped.WrittenResult
import Verif.Properties.Written
import Verif.Spec.Expression
import Verif.Lemmas.Region.Unique
import Verif.Lemmas.Shaped.Expression
import Verif.Properties.Laws
import Verif.Spec.Unique
import Verif.Lemmas.Region.Plain
import Verif.Lemmas.Region.PlainContours
import Verif.Lemmas.Shaped.Owner
import Verif.Lemmas.Shaped.Same
import Verif.Lemmas.Shaped.SameNormal
import Verif.Lemmas.Shaped.Detaching
import Verif.Lemmas.Shaped.Standard
import Verif.Properties.Unique
import Verif.Spec.Affine
import Verif.Lemmas.Region.Affine
import Verif.Lemmas.Region.AffineParts
import Verif.Lemmas.Shaped.Affine
import Verif.Properties.Affine
import Verif.Lemmas.AffineLinear
import Verif.Properties.AffineLinear
import Verif.Spec.Parts
import Verif.Properties.LinearWritten
import Verif.Properties.LinearEmpty
import Verif.Spec.LinearExpression
import Verif.Lemmas.LinearLaws
import Verif.Properties.LinearLaws
import Verif.Spec.Area
import Verif.Lemmas.Area.Gaps
import Verif.Lemmas.Area.Slices
import Verif.Lemmas.Area.Valuation
import Verif.Lemmas.Area.Laws
import Verif.Properties.Area
import Verif.Spec.Length
import Verif.Lemmas.Length.Valuation
import Verif.Lemmas.Length.Laws
import Verif.Properties.Length
import Verif.Lemmas.Below.AllParity
import Verif.Lemmas.Region.Sided
import Verif.Lemmas.Shaped.Sides
import Verif.Lemmas.Area.Outline
import Verif.Properties.Sides
import Verif.Spec.Drawn
import Verif.Lemmas.Shaped.Drawn
import Verif.Properties.Chains
import Verif.Spec.Fold
import Verif.Properties.Folds
import Verif.Lemmas.Shaped.DrawnAffine
import Verif.Properties.ChainsAffine
import Verif.Model.Objects
import Verif.Model.ObjectCalls
import Verif.Spec.Objects
import Verif.Lemmas.Objects.Core
import Verif.Lemmas.Objects.Linear
import Verif.Lemmas.Objects.Shaped
import Verif.Lemmas.Objects.Calls
import Verif.Properties.Objects
import Verif.Spec.Contacts
import Verif.Spec.Size
import Verif.Lemmas.Contacts
import Verif.Lemmas.Size
import Verif.Properties.Size
import Verif.Spec.Cut
import Verif.Lemmas.Steps
import Verif.Lemmas.Mixed.Pieces
import Verif.Properties.Steps
import Verif.Properties.Cut
import Verif.Model.TreeSweep
import Verif.Lemmas.TreeSweep.Exact
import Verif.Properties.TreeSweep
import Verif.Lemmas.TreeSweep.General
import Verif.Lemmas.TreeSweep.Linear
import Verif.Properties.Arbitrary
import Verif.Model.TreeMixed
import Verif.Lemmas.TreeSweep.Marks
import Verif.Properties.TreeMixed
import Verif.Model.TreeShaped
import Verif.Spec.Corners
import Verif.Lemmas.TreeSweep.Once
import Verif.Lemmas.TreeSweep.Trace
import Verif.Lemmas.TreeSweep.Sorting
import Verif.Lemmas.TreeSweep.Shaped
import Verif.Properties.TreeShaped
import Verif.Lemmas.TreeSweep.Checked
import Verif.Lemmas.TreeSweep.ShapedExact
import Verif.Lemmas.TreeSweep.ShapedOperations
import Verif.Properties.TreeShapedExact
import Verif.Lemmas.TreeSweep.Raises
import Verif.Spec.Perimeter
import Verif.Lemmas.Region.Across
import Verif.Properties.Perimeter
import Verif.Spec.Convex
import Verif.Lemmas.Kind
import Verif.Lemmas.Region.Convex
import Verif.Lemmas.Region.ConvexParts
import Verif.Properties.Convex
import Verif.Spec.Kinds
import Verif.Properties.Kinds
import Verif.Lemmas.Region.ConvexCount
import Verif.Properties.ConvexCount
import Verif.Lemmas.Region.ConvexUnion
import Verif.Properties.ConvexUnion
import Verif.Properties.Determined
import Verif.Lemmas.Region.UnionLinked
import Verif.Properties.UnionSingle
import Verif.Lemmas.Region.UnionPieces
import Verif.Lemmas.Region.ClosedPieces
import Verif.Properties.UnionPieces
import Verif.Properties.CutPieces
