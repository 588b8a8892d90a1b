import Verif.Model.Holeless

/-!
# Model of core/holey.py: operations on polygons and multipolygons
-/

namespace Clipping

/-- The lists `are_internal`, `depths`, `holes`, `parents` of `events_to_polygons` (core/holey.py:100) -/
structure Relations where
  areInternal : List Bool
  depths : List Nat
  holes : List (List Nat)
  parents : List (Option Nat)
deriving DecidableEq, Repr

/-- `holes[i].append(j)` -/
def appendHole (holes : List (List Nat)) (i j : Nat) : List (List Nat) := holes.modify i fun l => l ++ [j]

/-- `holes.append([])` etc. (core/holey.py:438-441) -/
def Relations.push (r : Relations) (isInternal : Bool) (depth : Nat) (parent : Option Nat) : Relations :=
  ⟨r.areInternal ++ [isInternal], r.depths ++ [depth], r.holes ++ [[]], r.parents ++ [parent]⟩

/-- The attributes `contour_id` and `from_in_to_out` of left events (core/event.py:339,340) -/
structure Marks where
  contourId : Nat → Option Nat
  fromInToOut : Nat → Bool

/-- `_compute_relations` (core/holey.py:414-441) for the left event `i`.  Python fails if the contour of the event below
or the parent is `None`. -/
def computeRelations (h : Heap ShapedData) (m : Marks) (i contourId : Nat) (r : Relations) : Except Err Relations :=
  match (h.lefts i).data.below with
  | none => .ok (r.push false 0 none)
  | some b =>
    match m.contourId b with
    | none => .error .assertion
    | some c =>
      if !m.fromInToOut b then
        if !r.areInternal.getD c false then
          .ok ({ r with holes := appendHole r.holes c contourId }.push true (r.depths.getD c 0 + 1) (some c))
        else .ok (r.push false 0 none)
      else if r.areInternal.getD c false then
        match r.parents.getD c none with
        | none => .error .assertion
        | some p => .ok ({ r with holes := appendHole r.holes p contourId }.push true (r.depths.getD c 0) (some p))
      else .ok (r.push false 0 none)

/-- The loop of `_to_contour_events` (core/holey.py:456-471).  Python has positions of the numbers of end points, which
are numbered in the order of the sweep; the model has positions of the points themselves.  The positions are
forgotten at the end (core/holey.py:472-475).  The loop of the model takes at most `fuel` steps. -/
def contourEventsLoop (h : Heap ShapedData) (events : List Ev) (connectivity : List Nat) (processed : Nat → Bool)
    (contourStart : Point) : Nat → Ev → Nat → (Point → Option Nat) → List Ev → Except Err (List Ev)
  | 0, _, _, _, _ => .error .outOfFuel
  | fuel + 1, cursor, oppositeId, positions, result =>
    if h.evStop cursor = contourStart then .ok result
    else
      let next (positions : Point → Option Nat) (result : List Ev) : Except Err (List Ev) :=
        match nextEventId connectivity processed oppositeId events.length oppositeId with
        | .error e => .error e
        | .ok none => .ok result
        | .ok (some id) =>
          let cursor := events.getD id (.left 0)
          contourEventsLoop h events connectivity processed contourStart fuel cursor
            (eventId events (h.opposite cursor)) positions (result ++ [cursor])
      match positions (h.evStop cursor) with
      | none => next (Function.update positions (h.evStop cursor) (some result.length)) result
      | some 0 => .error .assertion
      | some (position + 1) => next positions (result.take (position + 1))

/-- `_to_contour_events` (core/holey.py:444-476) -/
def toContourEvents (h : Heap ShapedData) (events : List Ev) (connectivity : List Nat) (processed : Nat → Bool)
    (event : Ev) : Except Err (List Ev) :=
  contourEventsLoop h events connectivity processed (h.evStart event) events.length event
    (eventId events (h.opposite event)) (Function.update (fun _ => none) (h.evStart event) (some 0)) [event]

/-- The attributes set by `_process_contour_events` (core/holey.py:479-490) -/
def markContour (contourId : Nat) (m : Marks) (events : List Ev) (h : Heap ShapedData) : Marks :=
  events.foldl (fun m e => match e with
    | .left i => ⟨Function.update m.contourId i (some contourId), Function.update m.fromInToOut i false⟩
    | .right j => ⟨Function.update m.contourId (h.rights j).left (some contourId),
        Function.update m.fromInToOut (h.rights j).left true⟩) m

/-- The events processed by `_process_contour_events` (core/holey.py:479-490) -/
def processContour (h : Heap ShapedData) (events : List Ev) (processed : Nat → Bool) (contourEvents : List Ev) :
    Nat → Bool :=
  contourEvents.foldl (fun p e => markProcessed p (eventId events e) (eventId events (h.opposite e))) processed

/-- `_contour_events_to_vertices` (core/holey.py:206-210) -/
def contourVertices (h : Heap ShapedData) (events : List Ev) : List Point :=
  shrinkCollinearVertices (((events.head?.map h.evStart).toList) ++ events.dropLast.map h.evStop)

/-- `vertices[:1] + vertices[:0:-1]` (core/holey.py:121) -/
def reverseVertices (vertices : List Point) : List Point := vertices.take 1 ++ (vertices.drop 1).reverse

/-- The loop of `events_to_polygons` over events (core/holey.py:107-122): contours and their relations -/
def traceContours (h : Heap ShapedData) (events : List Ev) (connectivity : List Nat) :
    List Nat → (Nat → Bool) → Marks → Relations → List Contour → Except Err (Relations × List Contour)
  | [], _, _, r, contours => .ok (r, contours)
  | id :: ids, processed, m, r, contours =>
    if processed id then traceContours h events connectivity ids processed m r contours
    else
      match events.getD id (.left 0) with
      | .right _ => .error .assertion
      | .left i =>
        let contourId := contours.length
        match computeRelations h m i contourId r with
        | .error e => .error e
        | .ok r =>
          match toContourEvents h events connectivity processed (.left i) with
          | .error e => .error e
          | .ok contourEvents =>
            let vertices := contourVertices h contourEvents
            let vertices := if r.depths.getD contourId 0 % 2 = 1 then reverseVertices vertices else vertices
            traceContours h events connectivity ids (processContour h events processed contourEvents)
              (markContour contourId m contourEvents h) r (contours ++ [⟨vertices⟩])

/-- `polygon_cls(contours[i], [contours[hole_id] for hole_id in holes[i]])` -/
def polygonOf (contours : List Contour) (holes : List (List Nat)) (i : Nat) : Polygon :=
  ⟨contours.getD i ⟨[]⟩, (holes.getD i []).map fun j => contours.getD j ⟨[]⟩⟩

/-- The last loop of `events_to_polygons` (core/holey.py:123-136) -/
def assemblePolygons (r : Relations) (contours : List Contour) : List Polygon :=
  (List.range contours.length).flatMap fun i =>
    if r.areInternal.getD i false then (r.holes.getD i []).map (polygonOf contours r.holes)
    else [polygonOf contours r.holes i]

/-- `events_to_polygons` (core/holey.py:88-136).  The assertions on the numbers of end points (core/holey.py:94-96) hold
because the events are processed in the order of their starts. -/
def eventsToPolygons (h : Heap ShapedData) (events : List Ev) : Except Err (List Polygon) :=
  let events := sortEvents h (events.filter (fromResult h))
  match traceContours h events (eventsToConnectivity h events) (List.range events.length) (fun _ => false)
      ⟨fun _ => none, fun _ => false⟩ ⟨[], [], [], []⟩ [] with
  | .error e => .error e
  | .ok (r, contours) => .ok (assemblePolygons r contours)

/-- The sweep with `fill_queue` (core/holey.py:138-149) -/
def holeySweep (rule : ShapedRule) (tb : TieBreak) (xmax : Option ℚ) (first second : List Polygon) :
    Except Err (Heap ShapedData × List Ev) :=
  shapedSweep (holeyOps rule) tb xmax (first.flatMap polygonEdges) (second.flatMap polygonEdges)

/-- `to_first_border_vertex` (core/utils.py:60-61) -/
def firstBorderVertex (polygon : Polygon) : Point := polygon.border.vertices.headD ⟨0, 0⟩

/-- `polygons.sort(key=to_first_border_vertex)` (core/holey.py:386,404): a stable sort -/
def sortPolygons (polygons : List Polygon) : List Polygon :=
  polygons.insertionSort fun p q => firstBorderVertex p ≤ firstBorderVertex q

variable (orient : Orient)

/-- `Intersection.compute` (core/holey.py:330-346) -/
def holeyIntersection (tb : TieBreak) (first second : ShapedOperand) : Except Err Geometry := do
  let firstBox ← polygonsBox first.polygons
  let secondBox ← polygonsBox second.polygons
  if disjointWith firstBox secondBox then return .empty
  let firstPolygons := toCoupledPolygons orient secondBox first.polygons
  if firstPolygons.isEmpty then return .empty
  let secondPolygons := toCoupledPolygons orient firstBox second.polygons
  if secondPolygons.isEmpty then return .empty
  let xmax₁ ← polygonsMaxX firstPolygons
  let xmax₂ ← polygonsMaxX secondPolygons
  let (h, events) ← holeySweep intersectionRule tb (some (min xmax₁ xmax₂)) firstPolygons secondPolygons
  let polygons ← eventsToPolygons h events
  return unpackPolygons polygons

/-- `Difference.compute` (core/holey.py:287-298) -/
def holeyDifference (tb : TieBreak) (first second : ShapedOperand) : Except Err Geometry := do
  let firstBox ← polygonsBox first.polygons
  let secondBox ← polygonsBox second.polygons
  if disjointWith firstBox secondBox then return first.value
  let secondPolygons := toCoupledPolygons orient firstBox second.polygons
  if secondPolygons.isEmpty then return first.value
  let xmax ← polygonsMaxX first.polygons
  let (h, events) ← holeySweep differenceRule tb (some xmax) first.polygons secondPolygons
  let polygons ← eventsToPolygons h events
  return unpackPolygons polygons

/-- `SymmetricDifference.compute` (core/holey.py:379-388) -/
def holeySymmetricDifference (tb : TieBreak) (first second : ShapedOperand) : Except Err Geometry := do
  let firstBox ← polygonsBox first.polygons
  let secondBox ← polygonsBox second.polygons
  if disjointWith firstBox secondBox then
    return .multipolygon (sortPolygons (first.polygons ++ second.polygons))
  let (h, events) ← holeySweep symmetricDifferenceRule tb none first.polygons second.polygons
  let polygons ← eventsToPolygons h events
  return unpackPolygons polygons

/-- `Union.compute` (core/holey.py:397-406) -/
def holeyUnion (tb : TieBreak) (first second : ShapedOperand) : Except Err Geometry := do
  let firstBox ← polygonsBox first.polygons
  let secondBox ← polygonsBox second.polygons
  if disjointWith firstBox secondBox then
    return .multipolygon (sortPolygons (first.polygons ++ second.polygons))
  let (h, events) ← holeySweep unionRule tb none first.polygons second.polygons
  let polygons ← eventsToPolygons h events
  return unpackPolygons polygons

/-- `CompleteIntersection.compute` (core/holey.py:216-254) -/
def holeyCompleteIntersection (tb : TieBreak) (first second : ShapedOperand) : Except Err Geometry := do
  let firstBox ← polygonsBox first.polygons
  let secondBox ← polygonsBox second.polygons
  if disjointWith firstBox secondBox then return .empty
  let firstPolygons := toIntersectingPolygons orient secondBox first.polygons
  if firstPolygons.isEmpty then return .empty
  let secondPolygons := toIntersectingPolygons orient firstBox second.polygons
  if secondPolygons.isEmpty then return .empty
  let xmax₁ ← polygonsMaxX firstPolygons
  let xmax₂ ← polygonsMaxX secondPolygons
  let (h, events) ← holeySweep intersectionRule tb (some (min xmax₁ xmax₂)) firstPolygons secondPolygons
  let events := sortEvents h events
  let points := touchPoints h (groupRuns h.evStart events)
  let segments := commonEdges h events
  let polygons ← eventsToPolygons h events
  return unpackMix (unpackPoints points) (unpackSegments segments) (unpackPolygons polygons)

end Clipping
