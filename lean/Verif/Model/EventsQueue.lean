import Verif.Model.Event

/-!
# Model of core/events_queue.py
-/

namespace Clipping

/-- Reasons for an operation to fail. -/
inductive Err
  /-- `ValueError` (core/events_queue.py:143,227,397): edges of one operand overlap -/
  | sameOperandOverlap
  /-- the bound on the number of sweep steps of the model is exceeded; proved unreachable -/
  | outOfFuel
  /-- `ValueError` of `min`/`max` of an empty sequence (operand without segments) -/
  | emptyOperand
  /-- `AssertionError`, `AttributeError` or `TypeError` in core/holey.py:95,96,414-441,449,462,474 -/
  | assertion
deriving DecidableEq, Repr

variable {α : Type}

/-- `BinaryEventsQueueKey.__lt__` (core/events_queue.py:44-72). -/
def queueLt (h : Heap α) (event other : Ev) : Bool :=
  let start := h.evStart event
  let otherStart := h.evStart other
  if start.x ≠ otherStart.x then decide (start.x < otherStart.x)
  else if start.y ≠ otherStart.y then decide (start.y < otherStart.y)
  else if Heap.isLeft event ≠ Heap.isLeft other then !Heap.isLeft event
  else
    let o := orientation start (h.evStop event) (h.evStop other)
    if o = .collinear then h.evFirst other
    else decide (o = if Heap.isLeft event then .counterclockwise else .clockwise)

/-- Events together with the queue: contents of the `PriorityQueue` in no particular order. -/
structure Store (α : Type) where
  heap : Heap α
  queue : List Ev

/-- How the external `prioq.PriorityQueue` orders elements of which neither precedes the other: some
rearrangement of the queue, about which nothing is known. -/
structure TieBreak where
  order : List Ev → List Ev
  perm : ∀ l, (order l).Perm l

/-- leave the order as it is -/
def TieBreak.id : TieBreak := ⟨fun l => l, fun _ => List.Perm.refl _⟩

/-- `f` precedes `e` and not the other way around. -/
def precedes (h : Heap α) (f e : Ev) : Bool := queueLt h f e && !queueLt h e f

/-- `PriorityQueue.pop()` (core/events_queue.py:174-175,277-278,355-356,427-428): some element of the
queue which no other element precedes. -/
def pop (tb : TieBreak) (s : Store α) : Option (Ev × List Ev) :=
  match s.queue with
  | [] => none
  | e :: q =>
    let e' := ((tb.order (e :: q)).find? fun a =>
      (e :: q).all fun b => !precedes s.heap b a).getD e
    some (e', (e :: q).erase e')

/-- The fields of events which are specific to a kind of operation. -/
structure Payload (α : Type) where
  /-- fields of a tail made by `divide` -/
  tail : α → α
  /-- fields of a new event; the argument tells whether its end points are in increasing order -/
  create : Bool → α
  /-- fields of `below_event` and `event` after an overlap has been found; the first argument tells
  whether they have the same start -/
  overlap : Bool → LeftEvent α → LeftEvent α → α × α

/-- `_divide_segment` (core/events_queue.py:187-190,272-275,441-444). -/
def divideSegment (P : Payload α) (s : Store α) (event : Nat) (point : Point) : Store α :=
  { heap := s.heap.divide P.tail event point
    queue := s.queue ++ [.left s.heap.count, .right s.heap.count] }

/-- Write the fields of two left events. -/
def Heap.setData (h : Heap α) (i : Nat) (d : α) : Heap α :=
  { h with lefts := Function.update h.lefts i { h.lefts i with data := d } }

/-- The part of `detect_intersection` for overlapping segments after the marks have been set
(core/events_queue.py:146-172,233-268,400-424). -/
def divideOverlapping (P : Payload α) (s : Store α) (below event : Nat) : Store α :=
  let h := s.heap
  let startsEqual := decide (h.start below = h.start event)
  let eventFirst := queueLt h (.left event) (.left below)
  let startMin := if eventFirst then event else below
  let startMax := if eventFirst then below else event
  let endsEqual := decide (h.stop event = h.stop below)
  let eventEndFirst := queueLt h (h.opposite (.left event)) (h.opposite (.left below))
  let endMin := if eventEndFirst then h.opposite (.left event) else h.opposite (.left below)
  let endMax := if eventEndFirst then h.opposite (.left below) else h.opposite (.left event)
  if startsEqual then
    -- both line segments are equal or share the left endpoint
    if !endsEqual then divideSegment P s (h.primary endMax) (h.evStart endMin) else s
  else if endsEqual then
    -- the line segments share the right endpoint
    divideSegment P s startMin (h.start startMax)
  else if startMin = h.primary endMax then
    -- one line segment includes the other one
    let s' := divideSegment P s startMin (h.evStart endMin)
    divideSegment P s' startMin (s'.heap.start startMax)
  else
    -- no line segment includes the other one
    let s' := divideSegment P s startMax (h.evStart endMin)
    divideSegment P s' startMin (s'.heap.start startMax)

/-- `LinearEventsQueue.detect_intersection`, `MixedEventsQueue.detect_intersection`,
`ShapedEventsQueue.detect_intersection` (core/events_queue.py:126-172,210-270,380-425).  The result
tells whether the segments overlap and start together (the linear version returns nothing). -/
def detectIntersection (P : Payload α) (s : Store α) (below event : Nat) : Except Err (Store α × Bool) :=
  let h := s.heap
  match segmentsRelation (h.segment below) (h.segment event) with
  | .disjoint => .ok (s, false)
  | .cross | .touch =>
    if h.start event ≠ h.start below ∧ h.stop event ≠ h.stop below then
      -- segments do not intersect at endpoints
      let point := segmentsIntersection (h.segment below) (h.segment event)
      let s₁ := if point ≠ h.start below ∧ point ≠ h.stop below then divideSegment P s below point else s
      let s₂ := if point ≠ s₁.heap.start event ∧ point ≠ s₁.heap.stop event
        then divideSegment P s₁ event point else s₁
      .ok (s₂, false)
    else .ok (s, false)
  | _ =>
    -- segments overlap
    if h.first below = h.first event then .error .sameOperandOverlap
    else
      let startsEqual := decide (h.start below = h.start event)
      let d := P.overlap startsEqual (h.lefts below) (h.lefts event)
      let s' := { s with heap := (h.setData below d.1).setData event d.2 }
      .ok (divideOverlapping P s' below event, startsEqual)

/-- `register` (core/events_queue.py:177-185,280-290,430-439). -/
def register (P : Payload α) (s : Store α) (segments : List Segment) (fromFirst : Bool) : Store α :=
  segments.foldl (fun s t =>
    { heap := s.heap.create P.create t fromFirst
      queue := s.queue ++ [.left s.heap.count, .right s.heap.count] }) s

end Clipping
