import Verif.Model.Holey

/-!
# Model of core/holey.py with the numbers of end points

`Model/Holey.lean` keys positions of end points by the points.  Here they are lists indexed by the numbers which `sweep`
gives to the start points of events, with all assertions on these numbers, and the first event is processed
before the loop.  `Properties/Numbered.lean` shows that the results are the same.
-/

namespace Clipping

/-- `sweep` (core/holey.py:187-203,263-282,306-325,355-374) without the numbers: the first event is processed without the check for the
early exit.  `pop` of an empty queue fails. -/
def sweepFirst {α : Type} (O : Ops α) (data : α) (tb : TieBreak) (stop : Point → Bool) (first second : List Segment) :
    Except Err (SweepState α × List (Ev × Nat)) :=
  let s : SweepState α :=
    ⟨register O.toPayload (register O.toPayload ⟨Heap.nothing data, []⟩ first true) second false, []⟩
  match pop tb s.store with
  | none => .error .emptyOperand
  | some (e, queue) =>
    match processEvent O { s with store := { s.store with queue := queue } } e with
    | .error err => .error err
    | .ok s' =>
      sweepLoop O tb stop (sweepFuel (first.length + second.length) - 1) s' [(e, s'.store.heap.primary e)]

/-- `current_endpoint` and `current_endpoint_id` (core/holey.py:193-201,269-279,312-322,361-371) -/
def startIdsFrom (h : Heap ShapedData) : Point → Nat → List Ev → List Nat
  | _, _, [] => []
  | endpoint, id, e :: es =>
    if h.evStart e ≠ endpoint then (id + 1) :: startIdsFrom h (h.evStart e) (id + 1) es
    else id :: startIdsFrom h endpoint id es

/-- The values of `start_id` given to the processed events by `sweep` -/
def startIds (h : Heap ShapedData) : List Ev → List Nat
  | [] => []
  | e :: es => 0 :: startIdsFrom h (h.evStart e) 0 es

/-- `event.start_id` after `sweep` has processed `events`; `none` is `UNDEFINED_INDEX` (core/event.py:16) -/
def startId (h : Heap ShapedData) (events : List Ev) (e : Ev) : Option Nat := (startIds h events)[events.idxOf e]?

/-- `visited_endpoints_positions[id] = position`; an `IndexError` is an error of the model, too -/
def setPosition (positions : List (Option Nat)) (id : Option Nat) (position : Option Nat) :
    Except Err (List (Option Nat)) :=
  match id with
  | none => .error .assertion
  | some id => if id < positions.length then .ok (positions.set id position) else .error .assertion

/-- `visited_endpoints_positions[id]` -/
def getPosition (positions : List (Option Nat)) (id : Option Nat) : Except Err (Option Nat) :=
  match id.bind fun id => positions[id]? with
  | none => .error .assertion
  | some position => .ok position

/-- The end of `_to_contour_events` (core/holey.py:472-475) -/
def clearPositions (positions : List (Option Nat)) : List (Option Nat) → Except Err (List (Option Nat))
  | [] => if positions.all Option.isNone then .ok positions else .error .assertion
  | id :: ids =>
    match setPosition positions id none with
    | .error e => .error e
    | .ok positions => clearPositions positions ids

/-- The loop of `_to_contour_events` (core/holey.py:456-471) and what follows it -/
def contourEventsLoopNumbered (h : Heap ShapedData) (number : Ev → Option Nat) (events : List Ev) (connectivity : List Nat)
    (processed : Nat → Bool) (contourStart : Point) :
    Nat → Ev → Nat → List (Option Nat) → List (Option Nat) → List Ev → Except Err (List Ev × List (Option Nat))
  | 0, _, _, _, _, _ => .error .outOfFuel
  | fuel + 1, cursor, oppositeId, positions, visited, result =>
    let finish (positions visited : List (Option Nat)) (result : List Ev) : Except Err (List Ev × List (Option Nat)) :=
      match clearPositions positions visited with
      | .error e => .error e
      | .ok positions => .ok (result, positions)
    if h.evStop cursor = contourStart then finish positions visited result
    else
      let endId := number (h.opposite cursor)
      let next (positions : List (Option Nat)) (result : List Ev) : Except Err (List Ev × List (Option Nat)) :=
        match nextEventId connectivity processed oppositeId events.length oppositeId with
        | .error e => .error e
        | .ok none => finish positions (visited ++ [endId]) result
        | .ok (some id) =>
          let cursor := events.getD id (.left 0)
          contourEventsLoopNumbered h number events connectivity processed contourStart fuel cursor
            (eventId events (h.opposite cursor)) positions (visited ++ [endId]) (result ++ [cursor])
      match getPosition positions endId with
      | .error e => .error e
      | .ok none =>
        match setPosition positions endId (some result.length) with
        | .error e => .error e
        | .ok positions => next positions result
      | .ok (some 0) => .error .assertion
      | .ok (some (position + 1)) => next positions (result.take (position + 1))

/-- `_to_contour_events` (core/holey.py:444-476) -/
def toContourEventsNumbered (h : Heap ShapedData) (number : Ev → Option Nat) (events : List Ev) (connectivity : List Nat)
    (processed : Nat → Bool) (event : Ev) (positions : List (Option Nat)) :
    Except Err (List Ev × List (Option Nat)) :=
  match setPosition positions (number event) (some 0) with
  | .error e => .error e
  | .ok positions =>
    contourEventsLoopNumbered h number events connectivity processed (h.evStart event) events.length event
      (eventId events (h.opposite event)) positions [number event] [event]

/-- The loop of `events_to_polygons` over events (core/holey.py:107-122) -/
def traceContoursNumbered (h : Heap ShapedData) (number : Ev → Option Nat) (events : List Ev) (connectivity : List Nat) :
    List Nat → (Nat → Bool) → Marks → Relations → List Contour → List (Option Nat) →
      Except Err (Relations × List Contour)
  | [], _, _, r, contours, _ => .ok (r, contours)
  | id :: ids, processed, m, r, contours, positions =>
    if processed id then traceContoursNumbered h number events connectivity ids processed m r contours positions
    else
      match events.getD id (.left 0) with
      | .right _ => .error .assertion
      | .left i =>
        let contourId := contours.length
        match computeRelations h m i contourId r with
        | .error e => .error e
        | .ok r =>
          match toContourEventsNumbered h number events connectivity processed (.left i) positions with
          | .error e => .error e
          | .ok (contourEvents, positions) =>
            let vertices := contourVertices h contourEvents
            let vertices := if r.depths.getD contourId 0 % 2 = 1 then reverseVertices vertices else vertices
            traceContoursNumbered h number events connectivity ids (processContour h events processed contourEvents)
              (markContour contourId m contourEvents h) r (contours ++ [⟨vertices⟩]) positions

/-- `event.start_id <= max_endpoint_id`; `UNDEFINED_INDEX` is `sys.maxsize` (core/event.py:16) -/
def notBeyond (maxId : Nat) : Option Nat → Bool
  | none => false
  | some id => decide (id ≤ maxId)

/-- `events_to_polygons` (core/holey.py:88-136) -/
def eventsToPolygonsNumbered (h : Heap ShapedData) (number : Ev → Option Nat) (events : List Ev) :
    Except Err (List Polygon) :=
  let events := events.filter (fromResult h)
  match events.getLast? with
  | none => .ok []
  | some last =>
    match number last with
    | none => .error .assertion
    | some maxId =>
      if !events.all fun e => notBeyond maxId (number e) then .error .assertion
      else
        let events := sortEvents h events
        match traceContoursNumbered h number events (eventsToConnectivity h events) (List.range events.length) (fun _ => false)
            ⟨fun _ => none, fun _ => false⟩ ⟨[], [], [], []⟩ [] (List.replicate (maxId + 1) none) with
        | .error e => .error e
        | .ok (r, contours) => .ok (assemblePolygons r contours)

/-- The sweep with `fill_queue` (core/holey.py:138-149): the events, in the order of the sweep, and all events as they are at the
end. -/
def holeySweepNumbered (rule : ShapedRule) (tb : TieBreak) (xmax : Option ℚ) (first second : List Polygon) :
    Except Err (Heap ShapedData × List Ev) :=
  match sweepFirst (holeyOps rule) ⟨false, false, .none, false, none⟩ tb (stopAt xmax) (first.flatMap polygonEdges)
      (second.flatMap polygonEdges) with
  | .error e => .error e
  | .ok (s, log) => .ok (s.store.heap, log.map Prod.fst)

variable (orient : Orient)

/-- `Intersection.compute` (core/holey.py:330-346) -/
def holeyIntersectionNumbered (tb : TieBreak) (first second : ShapedOperand) : Except Err Geometry := do
  let firstBox ← polygonsBox first.polygons
  let secondBox ← polygonsBox second.polygons
  if disjointWith firstBox secondBox then return .empty
  let firstPolygons := toCoupledPolygons orient secondBox first.polygons
  if firstPolygons.isEmpty then return .empty
  let secondPolygons := toCoupledPolygons orient firstBox second.polygons
  if secondPolygons.isEmpty then return .empty
  let xmax₁ ← polygonsMaxX firstPolygons
  let xmax₂ ← polygonsMaxX secondPolygons
  let (h, events) ← holeySweepNumbered intersectionRule tb (some (min xmax₁ xmax₂)) firstPolygons secondPolygons
  let polygons ← eventsToPolygonsNumbered h (startId h events) events
  return unpackPolygons polygons

/-- `Difference.compute` (core/holey.py:287-298) -/
def holeyDifferenceNumbered (tb : TieBreak) (first second : ShapedOperand) : Except Err Geometry := do
  let firstBox ← polygonsBox first.polygons
  let secondBox ← polygonsBox second.polygons
  if disjointWith firstBox secondBox then return first.value
  let secondPolygons := toCoupledPolygons orient firstBox second.polygons
  if secondPolygons.isEmpty then return first.value
  let xmax ← polygonsMaxX first.polygons
  let (h, events) ← holeySweepNumbered differenceRule tb (some xmax) first.polygons secondPolygons
  let polygons ← eventsToPolygonsNumbered h (startId h events) events
  return unpackPolygons polygons

/-- `SymmetricDifference.compute` (core/holey.py:379-388) -/
def holeySymmetricDifferenceNumbered (tb : TieBreak) (first second : ShapedOperand) : Except Err Geometry := do
  let firstBox ← polygonsBox first.polygons
  let secondBox ← polygonsBox second.polygons
  if disjointWith firstBox secondBox then
    return .multipolygon (sortPolygons (first.polygons ++ second.polygons))
  let (h, events) ← holeySweepNumbered symmetricDifferenceRule tb none first.polygons second.polygons
  let polygons ← eventsToPolygonsNumbered h (startId h events) events
  return unpackPolygons polygons

/-- `Union.compute` (core/holey.py:397-406) -/
def holeyUnionNumbered (tb : TieBreak) (first second : ShapedOperand) : Except Err Geometry := do
  let firstBox ← polygonsBox first.polygons
  let secondBox ← polygonsBox second.polygons
  if disjointWith firstBox secondBox then
    return .multipolygon (sortPolygons (first.polygons ++ second.polygons))
  let (h, events) ← holeySweepNumbered unionRule tb none first.polygons second.polygons
  let polygons ← eventsToPolygonsNumbered h (startId h events) events
  return unpackPolygons polygons

/-- `CompleteIntersection.compute` (core/holey.py:216-254) -/
def holeyCompleteIntersectionNumbered (tb : TieBreak) (first second : ShapedOperand) : Except Err Geometry := do
  let firstBox ← polygonsBox first.polygons
  let secondBox ← polygonsBox second.polygons
  if disjointWith firstBox secondBox then return .empty
  let firstPolygons := toIntersectingPolygons orient secondBox first.polygons
  if firstPolygons.isEmpty then return .empty
  let secondPolygons := toIntersectingPolygons orient firstBox second.polygons
  if secondPolygons.isEmpty then return .empty
  let xmax₁ ← polygonsMaxX firstPolygons
  let xmax₂ ← polygonsMaxX secondPolygons
  let (h, events) ← holeySweepNumbered intersectionRule tb (some (min xmax₁ xmax₂)) firstPolygons secondPolygons
  let sorted := sortEvents h events
  let points := touchPoints h (groupRuns h.evStart sorted)
  let segments := commonEdges h sorted
  let polygons ← eventsToPolygonsNumbered h (startId h events) sorted
  return unpackMix (unpackPoints points) (unpackSegments segments) (unpackPolygons polygons)

end Clipping
