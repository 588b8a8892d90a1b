import Verif.Model.Mixed
import Verif.Model.TreeSweep

/-!
# Model of core/mixed.py with the tree of the sweep line

As `Model/Mixed.lean`, with the sweep of `Model/TreeSweep.lean`.
-/

namespace Clipping

/-- `fill_queue` and the loop of `sweep`, as `mixedSweep` (core/mixed.py:78-86,143-157,198-213,240-255,284-296) -/
def treeMixedSweep (B : Balancing) (fromResult : Bool → MixedData → Bool) (tb : TieBreak) (xmax : Option ℚ) (segments : List Segment)
    (polygons : List Polygon) : Except Err (Heap MixedData × List (Ev × Nat)) :=
  match treeSweep B (mixedOps fromResult) ⟨false, false, false, false⟩ tb (stopAt xmax) segments
      (polygons.flatMap polygonEdges) with
  | .error e => .error e
  | .ok (s, log) => .ok (s.store.heap, log)

variable (orient : Orient)

/-- `Difference.compute` (core/mixed.py:122-138) -/
def treeMixedDifference (B : Balancing) (tb : TieBreak) (linear : LinearOperand) (shaped : ShapedOperand) : Except Err Geometry := do
  let segmentsBox ← boxOf linear.segments
  let shapedBox ← polygonsBox shaped.polygons
  if disjointWith segmentsBox shapedBox then return linear.value
  let polygons := toCoupledPolygons orient segmentsBox shaped.polygons
  if polygons.isEmpty then return linear.value
  let xmax ← maxXOf linear.segments
  let (h, log) ← treeMixedSweep B selectOutside tb (some xmax) linear.segments polygons
  return unpackSegments (resultSegments h (rightsOf log))

/-- `Intersection.compute` (core/mixed.py:219-235) -/
def treeMixedIntersection (B : Balancing) (tb : TieBreak) (linear : LinearOperand) (shaped : ShapedOperand) :
    Except Err Geometry := do
  let linearBox ← boxOf linear.segments
  let shapedBox ← polygonsBox shaped.polygons
  if disjointWith linearBox shapedBox then return .empty
  let segments := toIntersectingSegments shapedBox linear.segments
  if segments.isEmpty then return .empty
  let polygons := toIntersectingPolygons orient linearBox shaped.polygons
  if polygons.isEmpty then return .empty
  let xmax₁ ← maxXOf segments
  let xmax₂ ← polygonsMaxX polygons
  let (h, log) ← treeMixedSweep B selectInside tb (some (min xmax₁ xmax₂)) segments polygons
  return unpackSegments (resultSegments h (leftsOf log))

/-- `CompleteIntersection.compute` (core/mixed.py:162-193) -/
def treeMixedCompleteIntersection (B : Balancing) (tb : TieBreak) (linear : LinearOperand) (shaped : ShapedOperand) :
    Except Err Geometry := do
  let linearBox ← boxOf linear.segments
  let shapedBox ← polygonsBox shaped.polygons
  if disjointWith linearBox shapedBox then return .empty
  let segments := toIntersectingSegments shapedBox linear.segments
  if segments.isEmpty then return .empty
  let polygons := toIntersectingPolygons orient linearBox shaped.polygons
  if polygons.isEmpty then return .empty
  let xmax₁ ← maxXOf segments
  let xmax₂ ← polygonsMaxX polygons
  let (h, log) ← treeMixedSweep B selectInside tb (some (min xmax₁ xmax₂)) segments polygons
  let events := (log.map Prod.fst).insertionSort fun e f => queueLt h f e = false
  let points := commonPoints h (groupRuns h.evStart events)
  let lefts := events.filterMap fun e => match e with | .left i => some i | .right _ => none
  return unpackLinearMix (unpackPoints points) (unpackSegments (resultSegments h lefts))

/-- `Union.compute` and `SymmetricDifference.compute` (core/mixed.py:259-279,299) -/
def treeMixedUnion (B : Balancing) (tb : TieBreak) (linear : LinearOperand) (shaped : ShapedOperand) : Except Err Geometry := do
  let linearBox ← boxOf linear.segments
  let shapedBox ← polygonsBox shaped.polygons
  if disjointWith linearBox shapedBox then return .mix .empty linear.value shaped.value
  let (rest, segments) := splitIntersectingSegments shapedBox linear.segments
  let polygons := toIntersectingPolygons orient linearBox shaped.polygons
  let (h, log) ← treeMixedSweep B selectOutside tb none segments polygons
  let result := unpackSegments (resultSegments h (leftsOf log) ++ rest)
  return if result.isEmpty then shaped.value else .mix .empty result shaped.value

end Clipping
