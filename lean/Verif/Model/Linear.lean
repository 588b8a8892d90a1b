import Verif.Model.Sweep
import Verif.Model.Bounding
import Verif.Model.Unpacking
import Mathlib.Data.List.Sort

/-!
# Model of the sweeping operations of core/linear.py
-/

namespace Clipping

/-- `LinearOperand` (core/operands.py:16-47): the given value and its segments. -/
structure LinearOperand where
  value : Geometry
  segments : List Segment

/-- `MultisegmentOperand` (core/operands.py:25-34) -/
def multisegmentOperand (segments : List Segment) : LinearOperand := ⟨.multisegment segments, segments⟩

/-- `SegmentOperand` (core/operands.py:37-46) -/
def segmentOperand (s : Segment) : LinearOperand := ⟨.segment s, [s]⟩

/-- `itertools.groupby`: runs of elements with the same key. -/
def groupRuns {β κ : Type} [DecidableEq κ] (key : β → κ) : List β → List (κ × List β)
  | [] => []
  | x :: xs =>
    match groupRuns key xs with
    | [] => [(key x, [x])]
    | (k, g) :: rest => if key x = k then (k, x :: g) :: rest else (key x, [x]) :: (k, g) :: rest

/-- `all_equal` (core/utils.py:21-23) of truth values. -/
def allEqual : List Bool → Bool
  | [] => true
  | b :: bs => bs.all fun c => c == b

/-- Comparison of pairs of end points `(start, end)` as tuples. -/
def endpointsLe (s t : Segment) : Prop := s.start < t.start ∨ (s.start = t.start ∧ s.stop ≤ t.stop)

instance : DecidableRel endpointsLe := fun s t =>
  inferInstanceAs (Decidable (s.start < t.start ∨ (s.start = t.start ∧ s.stop ≤ t.stop)))

/-- `sorted(endpoints)` / `segments.sort(key=to_endpoints)` -/
def sortEndpoints (l : List Segment) : List Segment := l.insertionSort endpointsLe

/-- `to_segments_x_max` (core/utils.py:76-77), with the first segment apart. -/
def segmentsMaxX (s : Segment) (rest : List Segment) : ℚ :=
  rest.foldl (fun m t => max m (max t.start.x t.stop.x)) (max s.start.x s.stop.x)

/-- `context.segments_box(segments)`; fails for no segments. -/
def boxOf : List Segment → Except Err Box
  | [] => .error .emptyOperand
  | s :: rest => .ok (segmentsBox s rest)

/-- `to_segments_x_max(segments)`; fails for no segments. -/
def maxXOf : List Segment → Except Err ℚ
  | [] => .error .emptyOperand
  | s :: rest => .ok (segmentsMaxX s rest)

/-- The linear operations have no further fields in events. -/
def linearOps : Ops Unit where
  tail := id
  create := fun _ => ()
  overlap := fun _ _ _ => ((), ())
  compute := fun _ _ _ => ()
  skipPresent := false

/-- `if x_max < event.start.x: break` (core/linear.py:182,225,284); `none` for no early exit -/
def stopAt (xmax : Option ℚ) (p : Point) : Bool :=
  match xmax with
  | none => false
  | some m => decide (m < p.x)

/-- `Operation.sweep` and its overrides (core/linear.py:132-142,172-187,212-230): the left events of
the processed right events, and the events as they are at the end.  `xmax` is the early exit. -/
def linearSweep (tb : TieBreak) (xmax : Option ℚ) (first second : List Segment) :
    Except Err (Heap Unit × List Nat) :=
  match sweep linearOps () tb (stopAt xmax) first second with
  | .error e => .error e
  | .ok (s, log) => .ok (s.store.heap, log.filterMap fun (e, i) => if Heap.isLeft e then none else some i)

/-- `sorted(endpoints for endpoints, events in groupby(self.sweep(), key=to_endpoints) if keep(events))`
(core/linear.py:160-166,203-207,304-308,325-328) -/
def selectSegments (keep : List Bool → Bool) (h : Heap Unit) (events : List Nat) : List Segment :=
  sortEndpoints (((groupRuns h.segment events).filter fun g => keep (g.2.map h.first)).map Prod.fst)

/-- `Difference.compute` (core/linear.py:148-170) -/
def linearDifference (tb : TieBreak) (first second : LinearOperand) : Except Err Geometry := do
  let firstBox ← boxOf first.segments
  let secondBox ← boxOf second.segments
  if disjointWith firstBox secondBox then return first.value
  let segments := toCoupledSegments firstBox second.segments
  if segments.isEmpty then return first.value
  let xmax ← maxXOf first.segments
  let (h, events) ← linearSweep tb (some xmax) first.segments segments
  return unpackSegments (selectSegments (fun fs => fs.all fun f => f) h events)

/-- `Intersection.compute` (core/linear.py:193-210) -/
def linearIntersection (tb : TieBreak) (first second : LinearOperand) : Except Err Geometry := do
  let firstBox ← boxOf first.segments
  let secondBox ← boxOf second.segments
  if disjointWith firstBox secondBox then return .empty
  let firstSegments := toCoupledSegments secondBox first.segments
  if firstSegments.isEmpty then return .empty
  let secondSegments := toCoupledSegments firstBox second.segments
  if secondSegments.isEmpty then return .empty
  let xmax₁ ← maxXOf firstSegments
  let xmax₂ ← maxXOf secondSegments
  let (h, events) ← linearSweep tb (some (min xmax₁ xmax₂)) firstSegments secondSegments
  return unpackSegments (selectSegments (fun fs => !allEqual fs) h events)

/-- `SymmetricDifference.compute` (core/linear.py:294-310) -/
def linearSymmetricDifference (tb : TieBreak) (first second : LinearOperand) : Except Err Geometry := do
  let firstBox ← boxOf first.segments
  let secondBox ← boxOf second.segments
  if disjointWith firstBox secondBox then
    return .multisegment (sortEndpoints (first.segments ++ second.segments))
  let (h, events) ← linearSweep tb none first.segments second.segments
  return unpackSegments (selectSegments allEqual h events)

/-- `Union.compute` (core/linear.py:316-329) -/
def linearUnion (tb : TieBreak) (first second : LinearOperand) : Except Err Geometry := do
  let firstBox ← boxOf first.segments
  let secondBox ← boxOf second.segments
  if disjointWith firstBox secondBox then
    return .multisegment (sortEndpoints (first.segments ++ second.segments))
  let (h, events) ← linearSweep tb none first.segments second.segments
  return .multisegment (selectSegments (fun _ => true) h events)

/-- `CompleteIntersection.sweep` (core/linear.py:272-288): all processed events. -/
def linearSweepAll (tb : TieBreak) (xmax : ℚ) (first second : List Segment) :
    Except Err (Heap Unit × List Ev) :=
  match sweep linearOps () tb (stopAt (some xmax)) first second with
  | .error e => .error e
  | .ok (s, log) => .ok (s.store.heap, log.map Prod.fst)

/-- `to_endpoints(event)` of any event: for a right event the greater end point comes first. -/
def evEndpoints (h : Heap Unit) (e : Ev) : Segment := ⟨h.evStart e, h.evStop e⟩

/-- The inner loop of `CompleteIntersection.compute` (core/linear.py:258-266) over pairs of successive
events: whether a common segment was found, and the end points appended. -/
def commonSegments (h : Heap Unit) : List Ev → Bool × List Segment
  | [] => (false, [])
  | [_] => (false, [])
  | e :: f :: rest =>
    let (found, segments) := commonSegments h (f :: rest)
    if h.evFirst e ≠ h.evFirst f ∧ h.evStart e = h.evStart f ∧ h.evStop e = h.evStop f then
      (true, if Heap.isLeft e then evEndpoints h e :: segments else segments)
    else (found, segments)

/-- The outer loop of `CompleteIntersection.compute` (core/linear.py:250-268): points and segments. -/
def commonParts (h : Heap Unit) : List (Point × List Ev) → List Point × List Segment
  | [] => ([], [])
  | (start, events) :: rest =>
    let (points, segments) := commonParts h rest
    if allEqual (events.map h.evFirst) then (points, segments)
    else
      let (found, segments') := commonSegments h events
      (if found then points else start :: points, segments' ++ segments)

/-- `CompleteIntersection.compute` (core/linear.py:236-272) -/
def linearCompleteIntersection (tb : TieBreak) (first second : LinearOperand) : Except Err Geometry := do
  let firstBox ← boxOf first.segments
  let secondBox ← boxOf second.segments
  if disjointWith firstBox secondBox then return .empty
  let firstSegments := toIntersectingSegments secondBox first.segments
  if firstSegments.isEmpty then return .empty
  let secondSegments := toIntersectingSegments firstBox second.segments
  if secondSegments.isEmpty then return .empty
  let xmax₁ ← maxXOf firstSegments
  let xmax₂ ← maxXOf secondSegments
  let (h, events) ← linearSweepAll tb (min xmax₁ xmax₂) firstSegments secondSegments
  let sorted := events.insertionSort fun e f => endpointsLe (evEndpoints h e) (evEndpoints h f)
  let (points, segments) := commonParts h (groupRuns h.evStart sorted)
  return unpackLinearMix (unpackPoints points) (unpackSegments segments)

end Clipping
