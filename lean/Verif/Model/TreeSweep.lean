import Verif.Model.Linear
import Verif.Model.RedBlack

/-!
# Model of the sweep with the tree of the sweep line

`Model/Sweep.lean` keeps the sweep line in an ordered list.  Here it is the search tree which the code uses
(`red_black.set_`, core/sweep_line.py:43-71): all look-ups go down from the root with the comparison
`BinarySweepLineKey.__lt__` on the events as they are at that moment.  Rebalancing is a parameter (`Balancing`).
-/

namespace Clipping

variable {α : Type}

/-- Events, queue and tree of the sweep line. -/
structure TreeState (α : Type) where
  store : Store α
  tree : RTree

/-- `event in sweep_line`, and the place for `above`, `below` and `remove` (core/sweep_line.py:52-71) -/
def treeSearch (h : Heap α) (t : RTree) (event : Nat) : Option ℕ := t.search (lineLt h) event

/-- `sweep_line.add(event)` (core/sweep_line.py:55-56): nothing happens if the key is there. -/
def treeAdd (B : Balancing) (h : Heap α) (t : RTree) (event : Nat) : RTree :=
  match treeSearch h t event with
  | some _ => t
  | none => B.insert t (t.place (lineLt h) event) event

/-- `sweep_line.above(event)` (core/sweep_line.py:61-65): the next value. -/
def treeAbove (h : Heap α) (t : RTree) (event : Nat) : Option Nat :=
  match treeSearch h t event with
  | none => none
  | some i => t.inorder[i + 1]?

/-- `sweep_line.below(event)` (core/sweep_line.py:67-71): the previous value. -/
def treeBelow (h : Heap α) (t : RTree) (event : Nat) : Option Nat :=
  match treeSearch h t event with
  | none => none
  | some 0 => none
  | some (i + 1) => t.inorder[i]?

/-- Checking the new event with the one below
(core/linear.py:119-120, core/mixed.py:112-117, core/holeless.py:155-160, core/holey.py:179-184). -/
def treeCheckBelow (O : Ops α) (t : RTree) (s : Store α) (event : Nat) (below : Option Nat) :
    Except Err (Store α) :=
  match below with
  | none => .ok s
  | some b =>
    match detectIntersection O.toPayload s b event with
    | .error e => .error e
    | .ok (s, false) => .ok s
    | .ok (s, true) =>
      .ok (computeFields O (computeFields O s b (treeBelow s.heap t b)) event (some b))

/-- `process_event` for a left event (core/linear.py:114-120, core/mixed.py:102-117,
core/holeless.py:144-160, core/holey.py:168-184). -/
def treeLeft (B : Balancing) (O : Ops α) (s : TreeState α) (event : Nat) : Except Err (TreeState α) :=
  if O.skipPresent && (treeSearch s.store.heap s.tree event).isSome then .ok s
  else
    let tree := treeAdd B s.store.heap s.tree event
    let above := treeAbove s.store.heap tree event
    let below := treeBelow s.store.heap tree event
    let s₁ := computeFields O s.store event below
    match checkAbove O s₁ event above below with
    | .error e => .error e
    | .ok s₂ =>
      match treeCheckBelow O tree s₂ event below with
      | .error e => .error e
      | .ok s₃ => .ok ⟨s₃, tree⟩

/-- `process_event` for a right event, given its left event (core/linear.py:121-130,
core/mixed.py:93-101, core/holeless.py:134-143, core/holey.py:159-166). -/
def treeRight (B : Balancing) (O : Ops α) (s : TreeState α) (event : Nat) : Except Err (TreeState α) :=
  match treeSearch s.store.heap s.tree event with
  | none => .ok s
  | some i =>
    let above := treeAbove s.store.heap s.tree event
    let below := treeBelow s.store.heap s.tree event
    let tree := B.remove s.tree i
    match below, above with
    | some b, some a =>
      match detectIntersection O.toPayload s.store b a with
      | .error e => .error e
      | .ok (s', _) => .ok ⟨s', tree⟩
    | _, _ => .ok ⟨s.store, tree⟩

/-- `process_event` -/
def treeProcess (B : Balancing) (O : Ops α) (s : TreeState α) : Ev → Except Err (TreeState α)
  | .left i => treeLeft B O s i
  | .right j => treeRight B O s (s.store.heap.rights j).left

/-- The loop of `sweep`, as `sweepLoop`.  The loop of the model takes at most `fuel` steps. -/
def treeLoop (B : Balancing) (O : Ops α) (tb : TieBreak) (stop : Point → Bool) :
    Nat → TreeState α → List (Ev × Nat) → Except Err (TreeState α × List (Ev × Nat))
  | 0, _, _ => .error .outOfFuel
  | fuel + 1, s, log =>
    match pop tb s.store with
    | none => .ok (s, log.reverse)
    | some (e, queue) =>
      if stop (s.store.heap.evStart e) then .ok (s, log.reverse)
      else
        match treeProcess B O { s with store := { s.store with queue := queue } } e with
        | .error err => .error err
        | .ok s' => treeLoop B O tb stop fuel s' ((e, s'.store.heap.primary e) :: log)

/-- `sweep`: fill the queue with the segments of both operands and run the loop. -/
def treeSweep (B : Balancing) (O : Ops α) (data : α) (tb : TieBreak) (stop : Point → Bool) (first second : List Segment) :
    Except Err (TreeState α × List (Ev × Nat)) :=
  let s := register O.toPayload (register O.toPayload ⟨Heap.nothing data, []⟩ first true) second false
  treeLoop B O tb stop (sweepFuel (first.length + second.length)) ⟨s, .nil⟩ []

/-- `Operation.sweep` of core/linear.py, as `linearSweep` (core/linear.py:132-142,172-187,212-230). -/
def treeLinearSweep (B : Balancing) (tb : TieBreak) (xmax : Option ℚ) (first second : List Segment) :
    Except Err (Heap Unit × List Nat) :=
  match treeSweep B linearOps () tb (stopAt xmax) first second with
  | .error e => .error e
  | .ok (s, log) => .ok (s.store.heap, log.filterMap fun (e, i) => if Heap.isLeft e then none else some i)

/-- `Difference.compute` (core/linear.py:148-170) -/
def treeLinearDifference (B : Balancing) (tb : TieBreak) (first second : LinearOperand) : Except Err Geometry := do
  let firstBox ← boxOf first.segments
  let secondBox ← boxOf second.segments
  if disjointWith firstBox secondBox then return first.value
  let segments := toCoupledSegments firstBox second.segments
  if segments.isEmpty then return first.value
  let xmax ← maxXOf first.segments
  let (h, events) ← treeLinearSweep B tb (some xmax) first.segments segments
  return unpackSegments (selectSegments (fun fs => fs.all fun f => f) h events)

/-- `Intersection.compute` (core/linear.py:193-210) -/
def treeLinearIntersection (B : Balancing) (tb : TieBreak) (first second : LinearOperand) : Except Err Geometry := do
  let firstBox ← boxOf first.segments
  let secondBox ← boxOf second.segments
  if disjointWith firstBox secondBox then return .empty
  let firstSegments := toCoupledSegments secondBox first.segments
  if firstSegments.isEmpty then return .empty
  let secondSegments := toCoupledSegments firstBox second.segments
  if secondSegments.isEmpty then return .empty
  let xmax₁ ← maxXOf firstSegments
  let xmax₂ ← maxXOf secondSegments
  let (h, events) ← treeLinearSweep B tb (some (min xmax₁ xmax₂)) firstSegments secondSegments
  return unpackSegments (selectSegments (fun fs => !allEqual fs) h events)

/-- `SymmetricDifference.compute` (core/linear.py:294-310) -/
def treeLinearSymmetricDifference (B : Balancing) (tb : TieBreak) (first second : LinearOperand) : Except Err Geometry := do
  let firstBox ← boxOf first.segments
  let secondBox ← boxOf second.segments
  if disjointWith firstBox secondBox then
    return .multisegment (sortEndpoints (first.segments ++ second.segments))
  let (h, events) ← treeLinearSweep B tb none first.segments second.segments
  return unpackSegments (selectSegments allEqual h events)

/-- `Union.compute` (core/linear.py:316-329) -/
def treeLinearUnion (B : Balancing) (tb : TieBreak) (first second : LinearOperand) : Except Err Geometry := do
  let firstBox ← boxOf first.segments
  let secondBox ← boxOf second.segments
  if disjointWith firstBox secondBox then
    return .multisegment (sortEndpoints (first.segments ++ second.segments))
  let (h, events) ← treeLinearSweep B tb none first.segments second.segments
  return .multisegment (selectSegments (fun _ => true) h events)

/-- `CompleteIntersection.sweep` (core/linear.py:272-288): all processed events. -/
def treeLinearSweepAll (B : Balancing) (tb : TieBreak) (xmax : ℚ) (first second : List Segment) :
    Except Err (Heap Unit × List Ev) :=
  match treeSweep B linearOps () tb (stopAt (some xmax)) first second with
  | .error e => .error e
  | .ok (s, log) => .ok (s.store.heap, log.map Prod.fst)

/-- `CompleteIntersection.compute` (core/linear.py:236-272) -/
def treeLinearCompleteIntersection (B : Balancing) (tb : TieBreak) (first second : LinearOperand) : Except Err Geometry := do
  let firstBox ← boxOf first.segments
  let secondBox ← boxOf second.segments
  if disjointWith firstBox secondBox then return .empty
  let firstSegments := toIntersectingSegments secondBox first.segments
  if firstSegments.isEmpty then return .empty
  let secondSegments := toIntersectingSegments firstBox second.segments
  if secondSegments.isEmpty then return .empty
  let xmax₁ ← maxXOf firstSegments
  let xmax₂ ← maxXOf secondSegments
  let (h, events) ← treeLinearSweepAll B tb (min xmax₁ xmax₂) firstSegments secondSegments
  let sorted := events.insertionSort fun e f => endpointsLe (evEndpoints h e) (evEndpoints h f)
  let (points, segments) := commonParts h (groupRuns h.evStart sorted)
  return unpackLinearMix (unpackPoints points) (unpackSegments segments)

end Clipping
