import Verif.Model.Objects
import Verif.Model.Nary

/-!
# Python objects: calls of the functions of clipping/planar.py

`B` is the unknown way in which the tree of the n-ary sweep line is balanced, `tb` the unknown order of the priority queue.
-/

namespace Clipping.Objects

/-- kinds of operations -/
inductive Kind
  | completeIntersection
  | intersection
  | difference
  | symmetricDifference
  | union
deriving DecidableEq

/-- calls of public functions: multisegments, multiregions, multipolygons and sequences are list objects -/
inductive Call
  /-- `intersect_segments`, `subtract_segments`, `symmetric_subtract_segments`, `unite_segments` (planar.py:42-234); there is no
  function for complete intersections, which is modelled by the one for intersections -/
  | segments (k : Kind) (first second : Segment)
  /-- `complete_intersect_segment_with_multisegment`, `intersect_segment_with_multisegment`, `subtract_multisegment_from_segment`,
  `symmetric_subtract_multisegment_from_segment`, `unite_segment_with_multisegment` (planar.py:237-647) -/
  | segmentWithMultisegment (k : Kind) (segment : Segment) (multisegment : Ref)
  /-- `subtract_segment_from_multisegment` (planar.py:449-512) -/
  | segmentFromMultisegment (multisegment : Ref) (segment : Segment)
  /-- `complete_intersect_multisegments`, …, `unite_multisegments` (planar.py:1441-1697) -/
  | multisegments (k : Kind) (first second : Ref)
  /-- `segments_to_multisegment` (planar.py:1399-1438) -/
  | toMultisegment (segments : Ref)
  /-- the functions for a linear and a shaped operand (planar.py:650-1396, 1700-2443) -/
  | mixed (k : Kind) (linear : LinearArgument) (shaped : ShapedArgument)
  /-- `intersect_regions`, `intersect_region_with_multiregion`, `intersect_multiregions` (planar.py:2509-2558, 2644-2707, 2821-2905) -/
  | intersectRegions (first second : RegionArgument)
  /-- `complete_intersect_regions`, … (planar.py:2446-2506, 2561-2641, 2710-2818) -/
  | completeIntersectRegions (first second : RegionArgument)
  /-- the functions for polygons and multipolygons (planar.py:2908-4875) -/
  | shaped (k : Kind) (first second : ShapedArgument)

/-- the objects of a geometry all lists of which are new -/
def fresh : Geometry → Prog Value
  | .empty => return .empty
  | .multipoint points => return .multipoint points
  | .segment s => return .segment s
  | .multisegment l => do return .multisegment (← new (.segments l))
  | .polygon p => return .polygon p
  | .multipolygon l => do return .multipolygon (← new (.polygons l))
  | .mix d l s => do return .mix (← fresh d) (← fresh l) (← fresh s)

/-- functions for two segments (core/linear.py:332-407): their lists are list displays of the result -/
def segmentsResult : Kind → Segment → Segment → Geometry
  | .completeIntersection, s, t => intersectSegments s t
  | .intersection, s, t => intersectSegments s t
  | .difference, s, t => subtractSegments s t
  | .symmetricDifference, s, t => symmetricSubtractSegments s t
  | .union, s, t => uniteSegments s t

variable (orient : Orient) (B : Balancing) (tb : TieBreak)

/-- The `compute` methods of `core/linear.py`. -/
def linearCompute : Kind → LinearObject → LinearObject → Prog Value
  | .completeIntersection => completeIntersection tb
  | .intersection => intersection tb
  | .difference => difference tb
  | .symmetricDifference => symmetricDifference tb
  | .union => union tb

/-- The `compute` methods of `core/mixed.py`. -/
def mixedCompute : Kind → LinearObject → ShapedObject → Prog Value
  | .completeIntersection => mixedCompleteIntersection orient tb
  | .intersection => mixedIntersection orient tb
  | .difference => mixedDifference orient tb
  | .symmetricDifference => mixedUnion orient tb
  | .union => mixedUnion orient tb

/-- The `compute` methods of `core/holey.py`. -/
def holeyCompute : Kind → ShapedObject → ShapedObject → Prog Value
  | .completeIntersection => holeyCompleteIntersection orient tb
  | .intersection => holeyIntersection orient tb
  | .difference => holeyDifference orient tb
  | .symmetricDifference => holeySymmetricDifference tb
  | .union => holeyUnion tb

/-- What the call does (planar.py). -/
def Call.run : Call → Prog Value
  | .segments k first second => fresh (segmentsResult k first second)
  | .segmentWithMultisegment .intersection segment multisegment => intersectSegment segment multisegment
  | .segmentWithMultisegment .union segment multisegment => uniteSegment segment multisegment
  | .segmentWithMultisegment k segment multisegment => do
    linearCompute tb k (← linearObject (.segment segment)) (← linearObject (.multisegment multisegment))
  | .segmentFromMultisegment multisegment segment => subtractSegment multisegment segment
  | .multisegments k first second => do
    linearCompute tb k (← linearObject (.multisegment first)) (← linearObject (.multisegment second))
  | .toMultisegment r => do unpackSegmentsList (← new (.segments (← calculate (mergeSegments B tb (← readSegments r)))))
  | .mixed k first second => do mixedCompute orient tb k (← linearObject first) (← shapedObject second)
  | .intersectRegions first second => do holelessIntersection orient tb (← regionObject first) (← regionObject second)
  | .completeIntersectRegions first second => do holelessCompleteIntersection orient tb (← regionObject first) (← regionObject second)
  | .shaped k first second => do holeyCompute orient tb k (← shapedObject first) (← shapedObject second)

end Clipping.Objects
