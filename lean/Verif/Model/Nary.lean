import Verif.Model.Linear
import Verif.Model.RedBlack

/-!
# Model of `segments_to_multisegment`: the n-ary sweep

core/linear.py:43-80, `NaryEventsQueue` (core/events_queue.py:75-106,283-358), `NarySweepLine`
(core/sweep_line.py:74-101,161-212), `LeftNaryEvent` and `RightNaryEvent` (core/event.py:63-100).  The
events are those of the other sweeps without further fields; the mark of the operand is not read.
-/

namespace Clipping

/-- `NaryEventsQueueKey.__lt__` (core/events_queue.py:83-106). -/
def naryQueueLt (h : Heap Unit) (event other : Ev) : Bool :=
  let start := h.evStart event
  let otherStart := h.evStart other
  if start.x ≠ otherStart.x then decide (start.x < otherStart.x)
  else if start.y ≠ otherStart.y then decide (start.y < otherStart.y)
  else if Heap.isLeft event ≠ Heap.isLeft other then !Heap.isLeft event
  else
    decide (orientation start (h.evStop event) (h.evStop other) =
      if Heap.isLeft event then .counterclockwise else .clockwise)

/-- `f` precedes `e` and not the other way around. -/
def naryPrecedes (h : Heap Unit) (f e : Ev) : Bool := naryQueueLt h f e && !naryQueueLt h e f

/-- `NaryEventsQueue.pop()` (core/events_queue.py:345-346): some element of the queue which no other
element precedes. -/
def naryPop (tb : TieBreak) (s : Store Unit) : Option (Ev × List Ev) :=
  match s.queue with
  | [] => none
  | e :: q =>
    let e' := ((tb.order (e :: q)).find? fun a =>
      (e :: q).all fun b => !naryPrecedes s.heap b a).getD e
    some (e', (e :: q).erase e')

/-- `NaryEventsQueue._divide_segment` (core/events_queue.py:355-358), with `LeftNaryEvent.divide`
(core/event.py:88-91). -/
def naryDivide (s : Store Unit) (event : Nat) (point : Point) : Store Unit :=
  divideSegment linearOps.toPayload s event point

/-- The part of `NaryEventsQueue.detect_intersection` for overlapping segments
(core/events_queue.py:315-343). -/
def naryDivideOverlapping (s : Store Unit) (below event : Nat) : Store Unit :=
  let h := s.heap
  let startsEqual := decide (h.start below = h.start event)
  let eventFirst := naryQueueLt h (.left event) (.left below)
  let startMin := if eventFirst then event else below
  let startMax := if eventFirst then below else event
  let endsEqual := decide (h.stop event = h.stop below)
  let eventEndFirst := naryQueueLt h (h.opposite (.left event)) (h.opposite (.left below))
  let endMin := if eventEndFirst then h.opposite (.left event) else h.opposite (.left below)
  let endMax := if eventEndFirst then h.opposite (.left below) else h.opposite (.left event)
  if startsEqual then
    -- both line segments are equal or share the left endpoint
    if !endsEqual then naryDivide s (h.primary endMax) (h.evStart endMin) else s
  else if endsEqual then
    -- the line segments share the right endpoint
    naryDivide s startMin (h.start startMax)
  else if startMin = h.primary endMax then
    -- one line segment includes the other one
    let s' := naryDivide s startMin (h.evStart endMin)
    naryDivide s' startMin (s'.heap.start startMax)
  else
    -- no line segment includes the other one
    let s' := naryDivide s startMax (h.evStart endMin)
    naryDivide s' startMin (s'.heap.start startMax)

/-- `NaryEventsQueue.detect_intersection` (core/events_queue.py:300-343). -/
def naryDetect (s : Store Unit) (below event : Nat) : Store Unit :=
  let h := s.heap
  match segmentsRelation (h.segment below) (h.segment event) with
  | .disjoint => s
  | .cross | .touch =>
    if h.start event ≠ h.start below ∧ h.stop event ≠ h.stop below then
      -- segments do not intersect at endpoints
      let point := segmentsIntersection (h.segment below) (h.segment event)
      let s₁ := if point ≠ h.start below ∧ point ≠ h.stop below then naryDivide s below point else s
      if point ≠ s₁.heap.start event ∧ point ≠ s₁.heap.stop event then naryDivide s₁ event point else s₁
    else s
  | _ => naryDivideOverlapping s below event

/-- `NarySweepLineKey.__lt__` (core/sweep_line.py:169-212). -/
def naryLineLt (h : Heap Unit) (event other : Nat) : Bool :=
  if event = other then false
  else
    let start := h.start event
    let otherStart := h.start other
    let stop := h.stop event
    let otherStop := h.stop other
    let otherStartOrientation := orientation start stop otherStart
    let otherEndOrientation := orientation start stop otherStop
    if otherStartOrientation = otherEndOrientation then
      if otherStartOrientation ≠ .collinear then
        -- other segment fully lies on one side
        decide (otherStartOrientation = .counterclockwise)
      -- segments are collinear
      else if start.x = otherStart.x then
        if start.y ≠ otherStart.y then
          -- segments are vertical
          decide (start.y < otherStart.y)
        -- segments have same start
        else if stop.y ≠ otherStop.y then decide (stop.y < otherStop.y)
        -- segments are horizontal
        else decide (stop.x < otherStop.x)
      else if start.y ≠ otherStart.y then decide (start.y < otherStart.y)
      -- segments are horizontal
      else decide (start.x < otherStart.x)
    else
      let startOrientation := orientation otherStart otherStop start
      let endOrientation := orientation otherStart otherStop stop
      if startOrientation = endOrientation then decide (startOrientation = .clockwise)
      else if otherStartOrientation = .collinear then decide (otherEndOrientation = .counterclockwise)
      else if startOrientation = .collinear then decide (endOrientation = .clockwise)
      else if endOrientation = .collinear then decide (startOrientation = .clockwise)
      else decide (otherStartOrientation = .counterclockwise)

/-- Events, queue, tree of the sweep line, and `segments_endpoints` with the last one first. -/
structure NaryState where
  store : Store Unit
  tree : RTree
  result : List Segment

/-- the search of the tree: `event in sweep_line`, and the place for `above`, `below` and `remove` -/
def narySearch (h : Heap Unit) (t : RTree) (event : Nat) : Option ℕ := t.search (naryLineLt h) event

/-- `sweep_line.above(event)` (core/sweep_line.py:91-95): the next value. -/
def naryAbove (h : Heap Unit) (t : RTree) (event : Nat) : Option Nat :=
  match narySearch h t event with
  | none => none
  | some i => t.inorder[i + 1]?

/-- `sweep_line.below(event)` (core/sweep_line.py:97-101): the previous value. -/
def naryBelow (h : Heap Unit) (t : RTree) (event : Nat) : Option Nat :=
  match narySearch h t event with
  | none => none
  | some 0 => none
  | some (i + 1) => t.inorder[i]?

/-- The loop body for a left event (core/linear.py:56-65). -/
def naryLeft (B : Balancing) (s : NaryState) (event : Nat) : NaryState :=
  match narySearch s.store.heap s.tree event with
  | some _ => s
  | none =>
    let tree := B.insert s.tree (s.tree.place (naryLineLt s.store.heap) event) event
    let above := naryAbove s.store.heap tree event
    let below := naryBelow s.store.heap tree event
    let s₁ := match above with
      | none => s.store
      | some a => naryDetect s.store event a
    let s₂ := match below with
      | none => s₁
      | some b => naryDetect s₁ b event
    { s with store := s₂, tree := tree }

/-- The loop body for a right event, given its left event (core/linear.py:66-74). -/
def naryRight (B : Balancing) (s : NaryState) (event : Nat) : NaryState :=
  match narySearch s.store.heap s.tree event with
  | none => s
  | some i =>
    let above := naryAbove s.store.heap s.tree event
    let below := naryBelow s.store.heap s.tree event
    let store := match below, above with
      | some b, some a => naryDetect s.store b a
      | _, _ => s.store
    { store := store, tree := B.remove s.tree i, result := store.heap.segment event :: s.result }

/-- The loop body (core/linear.py:55-74). -/
def naryProcess (B : Balancing) (s : NaryState) : Ev → NaryState
  | .left i => naryLeft B s i
  | .right j => naryRight B s (s.store.heap.rights j).left

/-- The loop of `_merge_segments` (core/linear.py:54-74).  The loop of the model takes at most `fuel`
steps. -/
def naryLoop (B : Balancing) (tb : TieBreak) : Nat → NaryState → Except Err NaryState
  | 0, _ => .error .outOfFuel
  | fuel + 1, s =>
    match naryPop tb s.store with
    | none => .ok s
    | some (e, queue) =>
      naryLoop B tb fuel (naryProcess B { s with store := { s.store with queue := queue } } e)

/-- `_merge_segments` (core/linear.py:48-77) -/
def mergeSegments (B : Balancing) (tb : TieBreak) (segments : List Segment) :
    Except Err (List Segment) :=
  let store := register linearOps.toPayload ⟨Heap.nothing (), []⟩ segments true
  match naryLoop B tb (sweepFuel segments.length) ⟨store, .nil, []⟩ with
  | .error e => .error e
  | .ok s => .ok (sortEndpoints ((groupRuns id s.result.reverse).map Prod.fst))

/-- `segments_to_multisegment` (clipping/planar.py:1399-1438), `merge_segments`
(core/linear.py:43-45) -/
def segmentsToMultisegment (B : Balancing) (tb : TieBreak) (segments : List Segment) :
    Except Err Geometry :=
  match mergeSegments B tb segments with
  | .error e => .error e
  | .ok l => .ok (unpackSegments l)

end Clipping
