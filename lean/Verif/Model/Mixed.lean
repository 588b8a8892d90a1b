import Verif.Model.Linear
import Verif.Model.BoundingShaped

/-!
# Model of core/mixed.py: operations on a linear and a shaped operand
-/

namespace Clipping

/-- The fields of `LeftMixedEvent` (core/event.py:160-180) apart from those common to all events. -/
structure MixedData where
  interiorToLeft : Bool
  otherInteriorToLeft : Bool
  isOverlap : Bool
  fromResult : Bool
deriving DecidableEq, Repr

/-- `LeftMixedEvent.outside` (core/event.py:183-188) -/
def MixedData.outside (d : MixedData) : Bool := !d.otherInteriorToLeft && !d.isOverlap

/-- `compute_fields` (core/mixed.py:67-76); `fromResult` is `from_result` of the operation, given
`from_first_operand` and the other fields of the event. -/
def mixedCompute (fromResult : Bool → MixedData → Bool) (h : Heap MixedData) (event : Nat)
    (below : Option Nat) : MixedData :=
  let d := (h.lefts event).data
  let d' := match below with
    | none => d
    | some b =>
      { d with otherInteriorToLeft :=
          if h.first event = h.first b then (h.lefts b).data.otherInteriorToLeft
          else (h.lefts b).data.interiorToLeft }
  { d' with fromResult := fromResult (h.first event) d' }

/-- Events of the mixed operations: `LeftMixedEvent.from_endpoints`, `LeftMixedEvent.divide`
(core/event.py:149-158,194-200), the marks set by `MixedEventsQueue.detect_intersection`
(core/events_queue.py:231), `compute_fields` and `process_event` (core/mixed.py:67-76,93-117). -/
def mixedOps (fromResult : Bool → MixedData → Bool) : Ops MixedData where
  tail := fun d => ⟨d.interiorToLeft, false, false, false⟩
  create := fun ordered => ⟨ordered, false, false, false⟩
  overlap := fun _ below event => ({ below.data with isOverlap := true }, { event.data with isOverlap := true })
  compute := mixedCompute fromResult
  skipPresent := true

/-- `HoleyOperand` (core/operands.py): the given value and its polygons -/
structure ShapedOperand where
  value : Geometry
  polygons : List Polygon

/-- `PolygonOperand` (core/operands.py) -/
def polygonOperand (polygon : Polygon) : ShapedOperand := ⟨.polygon polygon, [polygon]⟩

/-- `MultipolygonOperand` (core/operands.py) -/
def multipolygonOperand (polygons : List Polygon) : ShapedOperand := ⟨.multipolygon polygons, polygons⟩

/-- `from_result` of `Difference` and `Union` (core/mixed.py:140-141,281-282) -/
def selectOutside (first : Bool) (d : MixedData) : Bool := first && d.outside

/-- `from_result` of `CompleteIntersection` and `Intersection` (core/mixed.py:195-196,237-238) -/
def selectInside (first : Bool) (d : MixedData) : Bool := first && !d.outside

/-- `fill_queue` and the loop of `sweep` (core/mixed.py:78-86,143-157,198-213,240-255,284-296): the
processed events with their left events, and the events as they are at the end.  `xmax` is the early
exit. -/
def mixedSweep (fromResult : Bool → MixedData → Bool) (tb : TieBreak) (xmax : Option ℚ) (segments : List Segment)
    (polygons : List Polygon) : Except Err (Heap MixedData × List (Ev × Nat)) :=
  match sweep (mixedOps fromResult) ⟨false, false, false, false⟩ tb (stopAt xmax) segments
      (polygons.flatMap polygonEdges) with
  | .error e => .error e
  | .ok (s, log) => .ok (s.store.heap, log)

/-- `endpoints_to_segments([to_endpoints(event) for event in events if event.from_result], context)` for left
events -/
def resultSegments (h : Heap MixedData) (events : List Nat) : List Segment :=
  (events.filter fun i => (h.lefts i).data.fromResult).map h.segment

/-- the left events of the processed right events -/
def rightsOf (log : List (Ev × Nat)) : List Nat :=
  log.filterMap fun (e, i) => if Heap.isLeft e then none else some i

/-- the processed left events -/
def leftsOf (log : List (Ev × Nat)) : List Nat :=
  log.filterMap fun (e, i) => if Heap.isLeft e then some i else none

variable (orient : Orient)

/-- `Difference.compute` (core/mixed.py:122-138) -/
def mixedDifference (tb : TieBreak) (linear : LinearOperand) (shaped : ShapedOperand) : Except Err Geometry := do
  let segmentsBox ← boxOf linear.segments
  let shapedBox ← polygonsBox shaped.polygons
  if disjointWith segmentsBox shapedBox then return linear.value
  let polygons := toCoupledPolygons orient segmentsBox shaped.polygons
  if polygons.isEmpty then return linear.value
  let xmax ← maxXOf linear.segments
  let (h, log) ← mixedSweep selectOutside tb (some xmax) linear.segments polygons
  return unpackSegments (resultSegments h (rightsOf log))

/-- `Intersection.compute` (core/mixed.py:219-235) -/
def mixedIntersection (tb : TieBreak) (linear : LinearOperand) (shaped : ShapedOperand) :
    Except Err Geometry := do
  let linearBox ← boxOf linear.segments
  let shapedBox ← polygonsBox shaped.polygons
  if disjointWith linearBox shapedBox then return .empty
  let segments := toIntersectingSegments shapedBox linear.segments
  if segments.isEmpty then return .empty
  let polygons := toIntersectingPolygons orient linearBox shaped.polygons
  if polygons.isEmpty then return .empty
  let xmax₁ ← maxXOf segments
  let xmax₂ ← polygonsMaxX polygons
  let (h, log) ← mixedSweep selectInside tb (some (min xmax₁ xmax₂)) segments polygons
  return unpackSegments (resultSegments h (leftsOf log))

/-- The points of `CompleteIntersection.compute` (core/mixed.py:177-185): starts of groups of events of both
operands none of which is a part of a segment of the result -/
def commonPoints (h : Heap MixedData) (groups : List (Point × List Ev)) : List Point :=
  (groups.filter fun g =>
    !((g.2.any fun e => (h.lefts (h.primary e)).data.fromResult) || allEqual (g.2.map h.evFirst))).map Prod.fst

/-- `CompleteIntersection.compute` (core/mixed.py:162-193).  Python sorts by `BinaryEventsQueueKey`. -/
def mixedCompleteIntersection (tb : TieBreak) (linear : LinearOperand) (shaped : ShapedOperand) :
    Except Err Geometry := do
  let linearBox ← boxOf linear.segments
  let shapedBox ← polygonsBox shaped.polygons
  if disjointWith linearBox shapedBox then return .empty
  let segments := toIntersectingSegments shapedBox linear.segments
  if segments.isEmpty then return .empty
  let polygons := toIntersectingPolygons orient linearBox shaped.polygons
  if polygons.isEmpty then return .empty
  let xmax₁ ← maxXOf segments
  let xmax₂ ← polygonsMaxX polygons
  let (h, log) ← mixedSweep selectInside tb (some (min xmax₁ xmax₂)) segments polygons
  let events := (log.map Prod.fst).insertionSort fun e f => queueLt h f e = false
  let points := commonPoints h (groupRuns h.evStart events)
  let lefts := events.filterMap fun e => match e with | .left i => some i | .right _ => none
  return unpackLinearMix (unpackPoints points) (unpackSegments (resultSegments h lefts))

/-- `Union.compute` and `SymmetricDifference.compute` (core/mixed.py:259-279,299) -/
def mixedUnion (tb : TieBreak) (linear : LinearOperand) (shaped : ShapedOperand) : Except Err Geometry := do
  let linearBox ← boxOf linear.segments
  let shapedBox ← polygonsBox shaped.polygons
  if disjointWith linearBox shapedBox then return .mix .empty linear.value shaped.value
  let (rest, segments) := splitIntersectingSegments shapedBox linear.segments
  let polygons := toIntersectingPolygons orient linearBox shaped.polygons
  let (h, log) ← mixedSweep selectOutside tb none segments polygons
  let result := unpackSegments (resultSegments h (leftsOf log) ++ rest)
  return if result.isEmpty then shaped.value else .mix .empty result shaped.value

end Clipping
