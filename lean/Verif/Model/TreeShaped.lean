import Verif.Model.Numbered
import Verif.Model.TreeSweep

/-!
# Model of core/holeless.py and core/holey.py with the tree of the sweep line

As `Model/Holeless.lean` and `Model/Numbered.lean`, with the sweep of `Model/TreeSweep.lean`, and with the `IndexError`s which the code
raises if the opposite of an event has not been processed.  That cannot happen with valid operands, but it can with others.
-/

namespace Clipping

/-- The comparison of the queue is an order on the events. -/
def Distinguished (h : Heap ShapedData) (l : List Ev) : Prop :=
  (∀ e ∈ l, ∀ f ∈ l, e ≠ f → queueLt h e f = !queueLt h f e) ∧
    ∀ e ∈ l, ∀ f ∈ l, ∀ g ∈ l, e ≠ f → f ≠ g → e ≠ g → queueLt h e f = true → queueLt h f g = true → queueLt h e g = true

/-- `sorted(events, key=self._events_queue.key)` and `events.sort(...)` (core/holeless.py:79-82,180, core/holey.py:97,232).  The
comparison of events with overlapping segments of one operand is no order (core/events_queue.py:43-66), so what sorting does with them
is not known: only that it permutes, and never puts an event before another one with a lesser start, or a left event before a right
event with the same start.  If the comparison is an order, then sorting is as in `sortEvents`. -/
structure EventSort where
  sort : Heap ShapedData → List Ev → List Ev
  perm : ∀ h l, (sort h l).Perm l
  start : ∀ h l, (sort h l).Pairwise fun e f => h.evStart e ≤ h.evStart f
  side : ∀ h l, (sort h l).Pairwise fun e f => h.evStart e = h.evStart f → Heap.isLeft e = true → Heap.isLeft f = true
  order : ∀ h l, Distinguished h l → sort h l = sortEvents h l

/-- `event in sweep_line` for a left event: then `process_event` does nothing (core/holeless.py:144, core/holey.py:168). -/
def isSkipped (s : TreeState ShapedData) : Ev → Bool
  | .left i => (treeSearch s.store.heap s.tree i).isSome
  | .right _ => false

/-- The loop of `sweep` (core/holeless.py:208-219,241-252, core/holey.py:195-202,271-281,314-324,363-373), as `treeLoop`: all events, with
the information whether they are added to `processed_events`. -/
def treeShapedLoop (B : Balancing) (O : Ops ShapedData) (tb : TieBreak) (stop : Point → Bool) :
    Nat → TreeState ShapedData → List (Ev × Bool) → Except Err (TreeState ShapedData × List (Ev × Bool))
  | 0, _, _ => .error .outOfFuel
  | fuel + 1, s, log =>
    match pop tb s.store with
    | none => .ok (s, log.reverse)
    | some (e, queue) =>
      if stop (s.store.heap.evStart e) then .ok (s, log.reverse)
      else
        match treeProcess B O { s with store := { s.store with queue := queue } } e with
        | .error err => .error err
        | .ok s' => treeShapedLoop B O tb stop fuel s' ((e, !isSkipped s e) :: log)

/-- The initial events and the empty tree. -/
def treeShapedInit (O : Ops ShapedData) (first second : List Segment) : TreeState ShapedData :=
  ⟨register O.toPayload (register O.toPayload ⟨Heap.nothing ⟨false, false, .none, false, none⟩, []⟩ first true) second false, .nil⟩

/-- `sweep` of core/holeless.py (core/holeless.py:208-219,241-252) -/
def treeShapedSweep (B : Balancing) (O : Ops ShapedData) (tb : TieBreak) (stop : Point → Bool) (first second : List Segment) :
    Except Err (TreeState ShapedData × List (Ev × Bool)) :=
  treeShapedLoop B O tb stop (sweepFuel (first.length + second.length)) (treeShapedInit O first second) []

/-- `sweep` of core/holey.py (core/holey.py:187-203,263-282,306-325,355-374), as `sweepFirst` -/
def treeShapedSweepFirst (B : Balancing) (O : Ops ShapedData) (tb : TieBreak) (stop : Point → Bool) (first second : List Segment) :
    Except Err (TreeState ShapedData × List (Ev × Bool)) :=
  let s := treeShapedInit O first second
  match pop tb s.store with
  | none => .error .emptyOperand
  | some (e, queue) =>
    match treeProcess B O { s with store := { s.store with queue := queue } } e with
    | .error err => .error err
    | .ok s' => treeShapedLoop B O tb stop (sweepFuel (first.length + second.length) - 1) s' [(e, !isSkipped s e)]

/-- `processed_events` -/
def processedEvents (log : List (Ev × Bool)) : List Ev := (log.filter Prod.snd).map Prod.fst

/-- `_to_next_event_id` (core/holeless.py:259-268, core/holey.py:493-502).  A number which is no position of `connectivity` belongs to an
event which has none, `UNDEFINED_INDEX` (core/event.py:16). -/
def nextEventIdChecked (connectivity : List Nat) (processed : Nat → Bool) (eventId : Nat) :
    Nat → Nat → Except Err (Option Nat)
  | 0, _ => .error .outOfFuel
  | fuel + 1, candidate =>
    match connectivity[candidate]? with
    | none => .error .assertion
    | some candidate =>
      if !processed candidate then .ok (some candidate)
      else if candidate = eventId then .ok none
      else nextEventIdChecked connectivity processed eventId fuel candidate

/-- `processed[event_id] = processed[opposite_event_id] = True` -/
def markChecked (n : Nat) (processed : Nat → Bool) (i j : Nat) : Except Err (Nat → Bool) :=
  if i < n ∧ j < n then .ok (markProcessed processed i j) else .error .assertion

/-- The inner loop of `events_to_regions` (core/holeless.py:99-108), as `traceRegion` -/
def traceRegionChecked (h : Heap ShapedData) (events : List Ev) (connectivity : List Nat) (contourStart : Point) :
    Nat → Ev → Nat → (Nat → Bool) → List Point → Except Err (List Point × (Nat → Bool))
  | 0, _, _, _, _ => .error .outOfFuel
  | fuel + 1, cursor, oppositeId, processed, vertices =>
    if h.evStop cursor = contourStart then .ok (vertices, processed)
    else
      let vertices := vertices ++ [h.evStop cursor]
      match nextEventIdChecked connectivity processed oppositeId events.length oppositeId with
      | .error e => .error e
      | .ok none => .ok (vertices, processed)
      | .ok (some id) =>
        let cursor := events.getD id (.left 0)
        let oppositeId := eventId events (h.opposite cursor)
        match markChecked events.length processed id oppositeId with
        | .error e => .error e
        | .ok processed => traceRegionChecked h events connectivity contourStart fuel cursor oppositeId processed vertices

/-- The outer loop of `events_to_regions` (core/holeless.py:90-110), as `traceRegions` -/
def traceRegionsChecked (h : Heap ShapedData) (events : List Ev) (connectivity : List Nat) :
    List Nat → (Nat → Bool) → Except Err (List Contour)
  | [], _ => .ok []
  | id :: ids, processed =>
    if processed id then traceRegionsChecked h events connectivity ids processed
    else
      let event := events.getD id (.left 0)
      let start := h.evStart event
      let oppositeId := eventId events (h.opposite event)
      match markChecked events.length processed id oppositeId with
      | .error e => .error e
      | .ok processed =>
        match traceRegionChecked h events connectivity start events.length event oppositeId processed [start] with
        | .error e => .error e
        | .ok (vertices, processed) =>
          match traceRegionsChecked h events connectivity ids processed with
          | .error e => .error e
          | .ok contours => .ok (⟨shrinkCollinearVertices vertices⟩ :: contours)

/-- `events_to_regions` (core/holeless.py:78-111) -/
def eventsToRegionsChecked (S : EventSort) (h : Heap ShapedData) (events : List Ev) : Except Err (List Contour) :=
  let events := S.sort h (events.filter (fromResult h))
  traceRegionsChecked h events (eventsToConnectivity h events) (List.range events.length) fun _ => false

/-- The loop of `_to_contour_events` (core/holey.py:456-471) and what follows it, as `contourEventsLoopNumbered` -/
def contourEventsLoopChecked (h : Heap ShapedData) (number : Ev → Option Nat) (events : List Ev) (connectivity : List Nat)
    (processed : Nat → Bool) (contourStart : Point) :
    Nat → Ev → Nat → List (Option Nat) → List (Option Nat) → List Ev → Except Err (List Ev × List (Option Nat))
  | 0, _, _, _, _, _ => .error .outOfFuel
  | fuel + 1, cursor, oppositeId, positions, visited, result =>
    let finish (positions visited : List (Option Nat)) (result : List Ev) : Except Err (List Ev × List (Option Nat)) :=
      match clearPositions positions visited with
      | .error e => .error e
      | .ok positions => .ok (result, positions)
    if h.evStop cursor = contourStart then finish positions visited result
    else
      let endId := number (h.opposite cursor)
      let next (positions : List (Option Nat)) (result : List Ev) : Except Err (List Ev × List (Option Nat)) :=
        match nextEventIdChecked connectivity processed oppositeId events.length oppositeId with
        | .error e => .error e
        | .ok none => finish positions (visited ++ [endId]) result
        | .ok (some id) =>
          let cursor := events.getD id (.left 0)
          contourEventsLoopChecked h number events connectivity processed contourStart fuel cursor
            (eventId events (h.opposite cursor)) positions (visited ++ [endId]) (result ++ [cursor])
      match getPosition positions endId with
      | .error e => .error e
      | .ok none =>
        match setPosition positions endId (some result.length) with
        | .error e => .error e
        | .ok positions => next positions result
      | .ok (some 0) => .error .assertion
      | .ok (some (position + 1)) => next positions (result.take (position + 1))

/-- `_to_contour_events` (core/holey.py:444-476) -/
def toContourEventsChecked (h : Heap ShapedData) (number : Ev → Option Nat) (events : List Ev) (connectivity : List Nat)
    (processed : Nat → Bool) (event : Ev) (positions : List (Option Nat)) :
    Except Err (List Ev × List (Option Nat)) :=
  match setPosition positions (number event) (some 0) with
  | .error e => .error e
  | .ok positions =>
    contourEventsLoopChecked h number events connectivity processed (h.evStart event) events.length event
      (eventId events (h.opposite event)) positions [number event] [event]

/-- The events processed by `_process_contour_events` (core/holey.py:479-490) -/
def processContourChecked (h : Heap ShapedData) (events : List Ev) : (Nat → Bool) → List Ev → Except Err (Nat → Bool)
  | processed, [] => .ok processed
  | processed, e :: es =>
    match markChecked events.length processed (eventId events e) (eventId events (h.opposite e)) with
    | .error e => .error e
    | .ok processed => processContourChecked h events processed es

/-- The loop of `events_to_polygons` over events (core/holey.py:107-122) -/
def traceContoursChecked (h : Heap ShapedData) (number : Ev → Option Nat) (events : List Ev) (connectivity : List Nat) :
    List Nat → (Nat → Bool) → Marks → Relations → List Contour → List (Option Nat) →
      Except Err (Relations × List Contour)
  | [], _, _, r, contours, _ => .ok (r, contours)
  | id :: ids, processed, m, r, contours, positions =>
    if processed id then traceContoursChecked h number events connectivity ids processed m r contours positions
    else
      match events.getD id (.left 0) with
      | .right _ => .error .assertion
      | .left i =>
        let contourId := contours.length
        match computeRelations h m i contourId r with
        | .error e => .error e
        | .ok r =>
          match toContourEventsChecked h number events connectivity processed (.left i) positions with
          | .error e => .error e
          | .ok (contourEvents, positions) =>
            match processContourChecked h events processed contourEvents with
            | .error e => .error e
            | .ok processed =>
              let vertices := contourVertices h contourEvents
              let vertices := if r.depths.getD contourId 0 % 2 = 1 then reverseVertices vertices else vertices
              traceContoursChecked h number events connectivity ids processed
                (markContour contourId m contourEvents h) r (contours ++ [⟨vertices⟩]) positions

/-- `events_to_polygons` (core/holey.py:88-136) -/
def eventsToPolygonsChecked (S : EventSort) (h : Heap ShapedData) (number : Ev → Option Nat) (events : List Ev) :
    Except Err (List Polygon) :=
  let events := events.filter (fromResult h)
  match events.getLast? with
  | none => .ok []
  | some last =>
    match number last with
    | none => .error .assertion
    | some maxId =>
      if !events.all fun e => notBeyond maxId (number e) then .error .assertion
      else
        let events := S.sort h events
        match traceContoursChecked h number events (eventsToConnectivity h events) (List.range events.length) (fun _ => false)
            ⟨fun _ => none, fun _ => false⟩ ⟨[], [], [], []⟩ [] (List.replicate (maxId + 1) none) with
        | .error e => .error e
        | .ok (r, contours) => .ok (assemblePolygons r contours)

/-- `sweep` of core/holeless.py (core/holeless.py:208-219,241-252): the processed events -/
def treeHolelessSweep (B : Balancing) (tb : TieBreak) (first second : List Contour) : Except Err (Heap ShapedData × List Ev) := do
  let xmax₁ ← regionsMaxX first
  let xmax₂ ← regionsMaxX second
  match treeShapedSweep B (holelessOps intersectionRule) tb (stopAt (some (min xmax₁ xmax₂))) (regionsEdges first) (regionsEdges second) with
  | .error e => .error e
  | .ok (s, log) => .ok (s.store.heap, processedEvents log)

/-- The sweep with `fill_queue` (core/holey.py:138-149): the processed events, and their `start_id` -/
def treeHoleySweep (B : Balancing) (rule : ShapedRule) (tb : TieBreak) (xmax : Option ℚ) (first second : List Polygon) :
    Except Err (Heap ShapedData × (Ev → Option Nat) × List Ev) :=
  match treeShapedSweepFirst B (holeyOps rule) tb (stopAt xmax) (first.flatMap polygonEdges) (second.flatMap polygonEdges) with
  | .error e => .error e
  | .ok (s, log) => .ok (s.store.heap, startId s.store.heap (log.map Prod.fst), processedEvents log)

variable (orient : Orient)

/-- `Intersection.compute` (core/holeless.py:225-239) -/
def treeHolelessIntersection (B : Balancing) (S : EventSort) (tb : TieBreak) (first second : List Contour) : Except Err Geometry := do
  let firstBox ← contoursBox first
  let secondBox ← contoursBox second
  if disjointWith firstBox secondBox then return .empty
  let first := toCoupledRegions orient secondBox first
  if first.isEmpty then return .empty
  let second := toCoupledRegions orient firstBox second
  if second.isEmpty then return .empty
  let (h, events) ← treeHolelessSweep B tb first second
  let regions ← eventsToRegionsChecked S h events
  return unpackRegions regions

/-- `CompleteIntersection.compute` (core/holeless.py:166-202) -/
def treeHolelessCompleteIntersection (B : Balancing) (S : EventSort) (tb : TieBreak) (first second : List Contour) :
    Except Err Geometry := do
  let firstBox ← contoursBox first
  let secondBox ← contoursBox second
  if disjointWith firstBox secondBox then return .empty
  let first := toIntersectingRegions orient secondBox first
  if first.isEmpty then return .empty
  let second := toIntersectingRegions orient firstBox second
  if second.isEmpty then return .empty
  let (h, events) ← treeHolelessSweep B tb first second
  let events := S.sort h events
  let points := touchPoints h (groupRuns h.evStart events)
  let segments := commonEdges h events
  let regions ← eventsToRegionsChecked S h events
  return unpackMix (unpackPoints points) (unpackSegments segments) (unpackRegions regions)

/-- `Intersection.compute` (core/holey.py:330-346) -/
def treeHoleyIntersection (B : Balancing) (S : EventSort) (tb : TieBreak) (first second : ShapedOperand) : Except Err Geometry := do
  let firstBox ← polygonsBox first.polygons
  let secondBox ← polygonsBox second.polygons
  if disjointWith firstBox secondBox then return .empty
  let firstPolygons := toCoupledPolygons orient secondBox first.polygons
  if firstPolygons.isEmpty then return .empty
  let secondPolygons := toCoupledPolygons orient firstBox second.polygons
  if secondPolygons.isEmpty then return .empty
  let xmax₁ ← polygonsMaxX firstPolygons
  let xmax₂ ← polygonsMaxX secondPolygons
  let (h, number, events) ← treeHoleySweep B intersectionRule tb (some (min xmax₁ xmax₂)) firstPolygons secondPolygons
  let polygons ← eventsToPolygonsChecked S h number events
  return unpackPolygons polygons

/-- `Difference.compute` (core/holey.py:287-298) -/
def treeHoleyDifference (B : Balancing) (S : EventSort) (tb : TieBreak) (first second : ShapedOperand) : Except Err Geometry := do
  let firstBox ← polygonsBox first.polygons
  let secondBox ← polygonsBox second.polygons
  if disjointWith firstBox secondBox then return first.value
  let secondPolygons := toCoupledPolygons orient firstBox second.polygons
  if secondPolygons.isEmpty then return first.value
  let xmax ← polygonsMaxX first.polygons
  let (h, number, events) ← treeHoleySweep B differenceRule tb (some xmax) first.polygons secondPolygons
  let polygons ← eventsToPolygonsChecked S h number events
  return unpackPolygons polygons

/-- `SymmetricDifference.compute` (core/holey.py:379-388) -/
def treeHoleySymmetricDifference (B : Balancing) (S : EventSort) (tb : TieBreak) (first second : ShapedOperand) :
    Except Err Geometry := do
  let firstBox ← polygonsBox first.polygons
  let secondBox ← polygonsBox second.polygons
  if disjointWith firstBox secondBox then
    return .multipolygon (sortPolygons (first.polygons ++ second.polygons))
  let (h, number, events) ← treeHoleySweep B symmetricDifferenceRule tb none first.polygons second.polygons
  let polygons ← eventsToPolygonsChecked S h number events
  return unpackPolygons polygons

/-- `Union.compute` (core/holey.py:397-406) -/
def treeHoleyUnion (B : Balancing) (S : EventSort) (tb : TieBreak) (first second : ShapedOperand) : Except Err Geometry := do
  let firstBox ← polygonsBox first.polygons
  let secondBox ← polygonsBox second.polygons
  if disjointWith firstBox secondBox then
    return .multipolygon (sortPolygons (first.polygons ++ second.polygons))
  let (h, number, events) ← treeHoleySweep B unionRule tb none first.polygons second.polygons
  let polygons ← eventsToPolygonsChecked S h number events
  return unpackPolygons polygons

/-- `CompleteIntersection.compute` (core/holey.py:216-254) -/
def treeHoleyCompleteIntersection (B : Balancing) (S : EventSort) (tb : TieBreak) (first second : ShapedOperand) :
    Except Err Geometry := do
  let firstBox ← polygonsBox first.polygons
  let secondBox ← polygonsBox second.polygons
  if disjointWith firstBox secondBox then return .empty
  let firstPolygons := toIntersectingPolygons orient secondBox first.polygons
  if firstPolygons.isEmpty then return .empty
  let secondPolygons := toIntersectingPolygons orient firstBox second.polygons
  if secondPolygons.isEmpty then return .empty
  let xmax₁ ← polygonsMaxX firstPolygons
  let xmax₂ ← polygonsMaxX secondPolygons
  let (h, number, events) ← treeHoleySweep B intersectionRule tb (some (min xmax₁ xmax₂)) firstPolygons secondPolygons
  let sorted := S.sort h events
  let points := touchPoints h (groupRuns h.evStart sorted)
  let segments := commonEdges h sorted
  let polygons ← eventsToPolygonsChecked S h number sorted
  return unpackMix (unpackPoints points) (unpackSegments segments) (unpackPolygons polygons)

end Clipping
