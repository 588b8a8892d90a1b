import Verif.Ground.Basic
import Mathlib.Logic.Function.Basic

/-!
# Model of core/event.py: the mutable graph of events

Python events are objects which point to each other and are modified while the sweep is running.
The model keeps them in a store: left event number `i` and right event number `j` are entries of two
tables.  A right event is always created together with a left one, so one counter is enough.

The payload `α` has the fields which differ between the event classes (nothing for the linear
operations, `interior_to_left` etc. for the others).
-/

namespace Clipping

/-- `LeftBinaryEvent`, `LeftMixedEvent`, `LeftHolelessEvent`, `LeftHoleyEvent`
(core/event.py:103-131,147-199,219-314,317-430); `data` stands for the other fields. -/
structure LeftEvent (α : Type) where
  start : Point
  right : Nat
  fromFirst : Bool
  data : α
deriving Repr, DecidableEq

/-- `RightBinaryEvent`, `RightMixedEvent`, `RightShapedEvent` (core/event.py:134-144,202-216,436-462),
without `id` and `start_id`, which play no part in the sweep. -/
structure RightEvent where
  start : Point
  left : Nat
deriving Repr, DecidableEq

/-- Reference to an event (core/event.py:19-60). -/
inductive Ev
  | left (i : Nat)
  | right (j : Nat)
deriving Repr, DecidableEq

/-- The events created so far: the entries below `count` of both tables. -/
structure Heap (α : Type) where
  lefts : Nat → LeftEvent α
  rights : Nat → RightEvent
  count : Nat

namespace Heap

variable {α : Type}

/-- `event.start` of a left event. -/
def start (h : Heap α) (i : Nat) : Point := (h.lefts i).start

/-- `event.end` of a left event (core/event.py:24-26,45-47). -/
def stop (h : Heap α) (i : Nat) : Point := (h.rights (h.lefts i).right).start

/-- `event.from_first_operand` of a left event. -/
def first (h : Heap α) (i : Nat) : Bool := (h.lefts i).fromFirst

/-- A left event used as a segment: `context.segments_relation(below_event, event)` and
`to_endpoints(event)` read its `start` and `end` (core/events_queue.py:129, core/utils.py). -/
def segment (h : Heap α) (i : Nat) : Segment := ⟨h.start i, h.stop i⟩

/-- `event.is_left` (core/event.py:39,57). -/
def isLeft : Ev → Bool
  | .left _ => true
  | .right _ => false

/-- `event.opposite` (core/event.py:45-47,60-62). -/
def opposite (h : Heap α) : Ev → Ev
  | .left i => .right (h.lefts i).right
  | .right j => .left (h.rights j).left

/-- The left event of the pair: `event` itself or `event.left`
(`primary`, core/event.py:187-189,214-216). -/
def primary (h : Heap α) : Ev → Nat
  | .left i => i
  | .right j => (h.rights j).left

/-- `event.start`. -/
def evStart (h : Heap α) : Ev → Point
  | .left i => (h.lefts i).start
  | .right j => (h.rights j).start

/-- `event.end` (core/event.py:24-26). -/
def evStop (h : Heap α) (e : Ev) : Point := h.evStart (h.opposite e)

/-- `event.from_first_operand` (core/event.py:118,142-144,210-212,454-456). -/
def evFirst (h : Heap α) (e : Ev) : Bool := (h.lefts (h.primary e)).fromFirst

/-- `event.divide(point)` (core/event.py:127-131,192-198,307-313,423-429): the tail takes over the
right event, the divided event gets a new one.  The new left and right events get number `count`;
`tail` computes the payload of the tail. -/
def divide (tail : α → α) (h : Heap α) (i : Nat) (point : Point) : Heap α :=
  let l := h.lefts i
  let n := h.count
  { lefts := Function.update
      (Function.update h.lefts n
        { start := point, right := l.right, fromFirst := l.fromFirst, data := tail l.data })
      i { l with right := n }
    rights := Function.update
      (Function.update h.rights l.right { h.rights l.right with left := n })
      n { start := point, left := i }
    count := n + 1 }

/-- `from_segment_endpoints` / `from_endpoints` (core/event.py:104-112,148-158,220-230,318-328):
create a left and a right event with the lesser end point as start; `data` gets whether the end
points were in increasing order. -/
def create (data : Bool → α) (h : Heap α) (s : Segment) (fromFirst : Bool) : Heap α :=
  let n := h.count
  let swap := decide (s.stop < s.start)
  let a := if swap then s.stop else s.start
  let b := if swap then s.start else s.stop
  { lefts := Function.update h.lefts n
      { start := a, right := n, fromFirst := fromFirst, data := data (!swap) }
    rights := Function.update h.rights n { start := b, left := n }
    count := n + 1 }

/-- No events; the table entries are never read. -/
def nothing (data : α) : Heap α :=
  { lefts := fun _ => { start := ⟨0, 0⟩, right := 0, fromFirst := false, data := data }
    rights := fun _ => { start := ⟨0, 0⟩, left := 0 }
    count := 0 }

end Heap

end Clipping
