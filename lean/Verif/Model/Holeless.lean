import Verif.Model.Shaped

/-!
# Model of core/holeless.py: intersections of regions without holes
-/

namespace Clipping

/-- The inner loop of `events_to_regions` (core/holeless.py:99-108): the vertices of the contour and the processed
events.  The loop of the model takes at most `fuel` steps. -/
def traceRegion (h : Heap ShapedData) (events : List Ev) (connectivity : List Nat) (contourStart : Point) :
    Nat → Ev → Nat → (Nat → Bool) → List Point → Except Err (List Point × (Nat → Bool))
  | 0, _, _, _, _ => .error .outOfFuel
  | fuel + 1, cursor, oppositeId, processed, vertices =>
    if h.evStop cursor = contourStart then .ok (vertices, processed)
    else
      let vertices := vertices ++ [h.evStop cursor]
      match nextEventId connectivity processed oppositeId events.length oppositeId with
      | .error e => .error e
      | .ok none => .ok (vertices, processed)
      | .ok (some id) =>
        let cursor := events.getD id (.left 0)
        let oppositeId := eventId events (h.opposite cursor)
        traceRegion h events connectivity contourStart fuel cursor oppositeId (markProcessed processed id oppositeId)
          vertices

/-- The outer loop of `events_to_regions` (core/holeless.py:90-110) -/
def traceRegions (h : Heap ShapedData) (events : List Ev) (connectivity : List Nat) :
    List Nat → (Nat → Bool) → Except Err (List Contour)
  | [], _ => .ok []
  | id :: ids, processed =>
    if processed id then traceRegions h events connectivity ids processed
    else
      let event := events.getD id (.left 0)
      let start := h.evStart event
      let oppositeId := eventId events (h.opposite event)
      match traceRegion h events connectivity start events.length event oppositeId
          (markProcessed processed id oppositeId) [start] with
      | .error e => .error e
      | .ok (vertices, processed) =>
        match traceRegions h events connectivity ids processed with
        | .error e => .error e
        | .ok contours => .ok (⟨shrinkCollinearVertices vertices⟩ :: contours)

/-- `events_to_regions` (core/holeless.py:78-111) -/
def eventsToRegions (h : Heap ShapedData) (events : List Ev) : Except Err (List Contour) :=
  let events := sortEvents h (events.filter (fromResult h))
  traceRegions h events (eventsToConnectivity h events) (List.range events.length) fun _ => false

/-- `Context.contours_box` (core/holeless.py:168-169,227-228); fails for no contours. -/
def contoursBox : List Contour → Except Err Box
  | [] => .error .emptyOperand
  | c :: rest => .ok (rest.foldl (fun b q => b.join (contourBox q)) (contourBox c))

/-- `to_regions_x_max` (core/utils.py:64-67); fails for no vertices. -/
def regionsMaxX (regions : List Contour) : Except Err ℚ :=
  match regions.flatMap Contour.vertices with
  | [] => .error .emptyOperand
  | p :: rest => .ok (rest.foldl (fun m q => max m q.x) p.x)

/-- The edges which `fill_queue` registers (core/holeless.py:113-124) -/
def regionsEdges (regions : List Contour) : List Segment := regions.flatMap fun region => contourEdges region false

/-- `sweep` (core/holeless.py:208-219,241-252) -/
def holelessSweep (tb : TieBreak) (first second : List Contour) : Except Err (Heap ShapedData × List Ev) := do
  let xmax₁ ← regionsMaxX first
  let xmax₂ ← regionsMaxX second
  shapedSweep (holelessOps intersectionRule) tb (some (min xmax₁ xmax₂)) (regionsEdges first) (regionsEdges second)

variable (orient : Orient)

/-- `Intersection.compute` (core/holeless.py:225-239) -/
def holelessIntersection (tb : TieBreak) (first second : List Contour) : Except Err Geometry := do
  let firstBox ← contoursBox first
  let secondBox ← contoursBox second
  if disjointWith firstBox secondBox then return .empty
  let first := toCoupledRegions orient secondBox first
  if first.isEmpty then return .empty
  let second := toCoupledRegions orient firstBox second
  if second.isEmpty then return .empty
  let (h, events) ← holelessSweep tb first second
  let regions ← eventsToRegions h events
  return unpackRegions regions

/-- The points of `CompleteIntersection.compute` (core/holeless.py:182-190, core/holey.py:234-242): starts of groups of
events of both operands none of which is wholly in the complete intersection -/
def touchPoints (h : Heap ShapedData) (groups : List (Point × List Ev)) : List Point :=
  (groups.filter fun g =>
    !((g.2.any fun e => (h.lefts (h.primary e)).data.whollyInCompleteIntersection)
      || allEqual (g.2.map h.evFirst))).map Prod.fst

/-- The segments of `CompleteIntersection.compute` (core/holeless.py:191-197, core/holey.py:243-250) -/
def commonEdges (h : Heap ShapedData) (events : List Ev) : List Segment :=
  events.filterMap fun e => match e with
    | .left i => if h.first i && (h.lefts i).data.isCommonPolylineComponent then some (h.segment i) else none
    | .right _ => none

/-- `CompleteIntersection.compute` (core/holeless.py:166-202) -/
def holelessCompleteIntersection (tb : TieBreak) (first second : List Contour) : Except Err Geometry := do
  let firstBox ← contoursBox first
  let secondBox ← contoursBox second
  if disjointWith firstBox secondBox then return .empty
  let first := toIntersectingRegions orient secondBox first
  if first.isEmpty then return .empty
  let second := toIntersectingRegions orient firstBox second
  if second.isEmpty then return .empty
  let (h, events) ← holelessSweep tb first second
  let events := sortEvents h events
  let points := touchPoints h (groupRuns h.evStart events)
  let segments := commonEdges h events
  let regions ← eventsToRegions h events
  return unpackMix (unpackPoints points) (unpackSegments segments) (unpackRegions regions)

end Clipping
