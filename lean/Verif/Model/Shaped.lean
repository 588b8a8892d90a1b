import Verif.Model.Mixed

/-!
# Model of the sweep of core/holeless.py and core/holey.py: operations on two shaped operands
-/

namespace Clipping

/-- `OverlapKind` (core/enums.py) -/
inductive OverlapKind
  | none
  | same
  | different
deriving DecidableEq, Repr

/-- The fields of `LeftHolelessEvent` and `LeftHoleyEvent` (core/event.py:232-252,330-358) apart from those common to
all events and from those which are written after the sweep.  `below` is `below_event_from_shaped_result`, which
`LeftHolelessEvent` does not have. -/
structure ShapedData where
  interiorToLeft : Bool
  otherInteriorToLeft : Bool
  overlapKind : OverlapKind
  fromShapedResult : Bool
  below : Option Nat
deriving DecidableEq, Repr

/-- `inside` (core/event.py:257-264,366-373) -/
def ShapedData.inside (d : ShapedData) : Bool := d.otherInteriorToLeft && decide (d.overlapKind = .none)

/-- `outside` (core/event.py:287-293,404-410) -/
def ShapedData.outside (d : ShapedData) : Bool := !d.otherInteriorToLeft && decide (d.overlapKind = .none)

/-- `is_common_polyline_component` (core/event.py:266-271,375-380) -/
def ShapedData.isCommonPolylineComponent (d : ShapedData) : Bool := decide (d.overlapKind = .different)

/-- `is_common_region_boundary` (core/event.py:273-278,382-387) -/
def ShapedData.isCommonRegionBoundary (d : ShapedData) : Bool := decide (d.overlapKind = .same)

/-- `is_overlap` (core/event.py:280-285,389-394) -/
def ShapedData.isOverlap (d : ShapedData) : Bool := decide (d.overlapKind ≠ .none)

/-- `wholly_in_complete_intersection` (core/event.py:299-304,412-417) -/
def ShapedData.whollyInCompleteIntersection (d : ShapedData) : Bool :=
  d.fromShapedResult || d.isCommonPolylineComponent

/-- `from_shaped_result` of an operation, given `from_first_operand` and the other fields of the event. -/
abbrev ShapedRule := Bool → ShapedData → Bool

/-- `from_shaped_result` of `CompleteIntersection` and `Intersection` (core/holeless.py:204-206,254-256,
core/holey.py:256-259,348-351) -/
def intersectionRule : ShapedRule := fun first d => d.inside || !first && d.isCommonRegionBoundary

/-- `from_shaped_result` of `Difference` (core/holey.py:300-303) -/
def differenceRule : ShapedRule := fun first d =>
  if first then d.outside else d.inside || d.isCommonPolylineComponent

/-- `from_shaped_result` of `SymmetricDifference` (core/holey.py:390-391) -/
def symmetricDifferenceRule : ShapedRule := fun _ d => !d.isOverlap

/-- `from_shaped_result` of `Union` (core/holey.py:408-411) -/
def unionRule : ShapedRule := fun first d => d.outside || !first && d.isCommonRegionBoundary

/-- The first part of `compute_fields` (core/holeless.py:71-75, core/holey.py:74-79) -/
def otherInterior (h : Heap ShapedData) (event : Nat) (below : Option Nat) : Bool :=
  match below with
  | none => (h.lefts event).data.otherInteriorToLeft
  | some b =>
    if h.first event = h.first b then (h.lefts b).data.otherInteriorToLeft
    else (h.lefts b).data.interiorToLeft

/-- `is_vertical` (core/event.py:396-398) -/
def Heap.isVertical (h : Heap ShapedData) (i : Nat) : Bool := decide ((h.start i).x = (h.stop i).x)

/-- The second part of `compute_fields` (core/holey.py:80-85) -/
def belowFromResult (rule : ShapedRule) (h : Heap ShapedData) (event : Nat) (below : Option Nat) : Option Nat :=
  match below with
  | none => (h.lefts event).data.below
  | some b => if !rule (h.first b) (h.lefts b).data || h.isVertical b then (h.lefts b).data.below else some b

/-- `compute_fields` (core/holeless.py:69-76) -/
def holelessCompute (rule : ShapedRule) (h : Heap ShapedData) (event : Nat) (below : Option Nat) : ShapedData :=
  let d := { (h.lefts event).data with otherInteriorToLeft := otherInterior h event below }
  { d with fromShapedResult := rule (h.first event) d }

/-- `compute_fields` (core/holey.py:72-86) -/
def holeyCompute (rule : ShapedRule) (h : Heap ShapedData) (event : Nat) (below : Option Nat) : ShapedData :=
  let d := { (h.lefts event).data with
    otherInteriorToLeft := otherInterior h event below, below := belowFromResult rule h event below }
  { d with fromShapedResult := rule (h.first event) d }

/-- The marks set by `ShapedEventsQueue.detect_intersection` (core/events_queue.py:411-418) -/
def shapedOverlap (startsEqual : Bool) (below event : LeftEvent ShapedData) : ShapedData × ShapedData :=
  if startsEqual then
    let kind := if event.data.interiorToLeft = below.data.interiorToLeft then .same else .different
    ({ below.data with overlapKind := kind }, { event.data with overlapKind := kind })
  else (below.data, event.data)

/-- Events of the holeless operations: `LeftHolelessEvent.from_endpoints`, `LeftHolelessEvent.divide`
(core/event.py:220-230,306-312), `compute_fields` and `process_event` (core/holeless.py:69-76,130-160). -/
def holelessOps (rule : ShapedRule) : Ops ShapedData where
  tail := fun d => ⟨d.interiorToLeft, false, .none, false, none⟩
  create := fun ordered => ⟨ordered, false, .none, false, none⟩
  overlap := shapedOverlap
  compute := holelessCompute rule
  skipPresent := true

/-- Events of the holey operations: `LeftHoleyEvent.from_endpoints`, `LeftHoleyEvent.divide`
(core/event.py:318-328,423-429), `compute_fields` and `process_event` (core/holey.py:72-86,155-185). -/
def holeyOps (rule : ShapedRule) : Ops ShapedData where
  tail := fun d => ⟨d.interiorToLeft, false, .none, false, none⟩
  create := fun ordered => ⟨ordered, false, .none, false, none⟩
  overlap := shapedOverlap
  compute := holeyCompute rule
  skipPresent := true

/-- The loop of `sweep` on given edges (core/holeless.py:208-219,241-252, core/holey.py:187-203,261-281,305-324,
353-373): the processed events, and all events as they are at the end.  `xmax` is the early exit.  (The holey
versions process the first event before the loop, without the check for the early exit.  The first event is
never beyond the exit.  They fail on an empty queue, which is impossible by contract.) -/
def shapedSweep (O : Ops ShapedData) (tb : TieBreak) (xmax : Option ℚ) (first second : List Segment) :
    Except Err (Heap ShapedData × List Ev) :=
  match sweep O ⟨false, false, .none, false, none⟩ tb (stopAt xmax) first second with
  | .error e => .error e
  | .ok (s, log) => .ok (s.store.heap, log.map Prod.fst)

/-- `event.primary.from_shaped_result` -/
def fromResult (h : Heap ShapedData) (e : Ev) : Bool := (h.lefts (h.primary e)).data.fromShapedResult

/-- `sorted(events, key=self._events_queue.key)` -/
def sortEvents (h : Heap ShapedData) (events : List Ev) : List Ev :=
  events.insertionSort fun e f => queueLt h f e = false

/-- The part of `events_to_connectivity` for the events with the same start (core/event.py:474-495): `rights` right
events from number `index` on, and then `lefts` left events. -/
def groupConnectivity (index rights lefts : Nat) : List Nat :=
  (if rights = 0 then []
    else (List.range (rights - 1)).map (fun k => index + k + 1)
      ++ [if lefts = 0 then index else index + rights + lefts - 1])
  ++ (if lefts = 0 then []
    else (if rights = 0 then index + rights + lefts - 1 else index)
      :: (List.range (lefts - 1)).map (fun k => index + rights + k))

/-- The loop of `events_to_connectivity` over groups of events with the same start -/
def connectivityFrom {α : Type} : Nat → List (α × List Ev) → List Nat
  | _, [] => []
  | index, (_, g) :: rest =>
    let rights := (g.takeWhile fun e => !Heap.isLeft e).length
    groupConnectivity index rights (g.length - rights) ++ connectivityFrom (index + g.length) rest

/-- `events_to_connectivity` (core/event.py:465-496) -/
def eventsToConnectivity (h : Heap ShapedData) (events : List Ev) : List Nat :=
  connectivityFrom 0 (groupRuns h.evStart events)

/-- `_to_next_event_id` (core/holeless.py:259-268, core/holey.py:493-502); the result `none` is `UNDEFINED_INDEX`.
The loop of the model takes at most `fuel` steps. -/
def nextEventId (connectivity : List Nat) (processed : Nat → Bool) (eventId : Nat) :
    Nat → Nat → Except Err (Option Nat)
  | 0, _ => .error .outOfFuel
  | fuel + 1, candidate =>
    let candidate := connectivity.getD candidate 0
    if !processed candidate then .ok (some candidate)
    else if candidate = eventId then .ok none
    else nextEventId connectivity processed eventId fuel candidate

/-- `event.id`: the position among the sorted events of the result -/
def eventId (events : List Ev) (e : Ev) : Nat := events.idxOf e

/-- `processed[event_id] = processed[opposite_event_id] = True` -/
def markProcessed (processed : Nat → Bool) (i j : Nat) : Nat → Bool :=
  Function.update (Function.update processed j true) i true

/-- `vertices[index]` -/
def pyGet (vertices : List Point) (index : Int) : Point :=
  if index < 0 then vertices.getD (vertices.length + index).toNat ⟨0, 0⟩ else vertices.getD index.toNat ⟨0, 0⟩

/-- `del vertices[index]` -/
def pyDel (vertices : List Point) (index : Int) : List Point :=
  if index < 0 then vertices.eraseIdx (vertices.length + index).toNat else vertices.eraseIdx index.toNat

/-- The inner loop of the first part of `shrink_collinear_vertices` (core/utils.py:84-87) for `index = -k`.  Every
step deletes a vertex, so the first argument, the number of vertices, is enough. -/
def shrinkFirstInner (k : Nat) : Nat → List Point → List Point
  | 0, vertices => vertices
  | fuel + 1, vertices =>
    if max 2 k < vertices.length ∧ orientation (pyGet vertices (-k + 1)) (pyGet vertices (-k + 2))
        (pyGet vertices (-k)) = .collinear then
      shrinkFirstInner k fuel (pyDel vertices (-k + 1))
    else vertices

/-- The first part of `shrink_collinear_vertices` (core/utils.py:83-88), from `index = -k` on -/
def shrinkFirst : Nat → List Point → List Point
  | 0, vertices => vertices
  | k + 1, vertices => shrinkFirst k (shrinkFirstInner (k + 1) vertices.length vertices)

/-- The inner loop of the second part of `shrink_collinear_vertices` (core/utils.py:90-93) -/
def shrinkSecondInner (index : Nat) : Nat → List Point → List Point
  | 0, vertices => vertices
  | fuel + 1, vertices =>
    if max 2 index < vertices.length ∧ orientation (pyGet vertices (index - 1)) (pyGet vertices (index - 2))
        (pyGet vertices index) = .collinear then
      shrinkSecondInner index fuel (pyDel vertices (index - 1))
    else vertices

/-- The second part of `shrink_collinear_vertices` (core/utils.py:89-94).  Every step is one closer to the end, so the
first argument, the number of vertices at the beginning, is enough. -/
def shrinkSecond : Nat → Nat → List Point → List Point
  | 0, _, vertices => vertices
  | fuel + 1, index, vertices =>
    if index < vertices.length then
      shrinkSecond fuel (index + 1) (shrinkSecondInner index vertices.length vertices)
    else vertices

/-- `shrink_collinear_vertices` (core/utils.py:80-94) -/
def shrinkCollinearVertices (vertices : List Point) : List Point :=
  let vertices := shrinkFirst (vertices.length - 1) vertices
  shrinkSecond vertices.length 0 vertices

end Clipping
