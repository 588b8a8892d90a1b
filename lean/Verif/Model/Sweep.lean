import Verif.Model.SweepLine

/-!
# Model of the sweep common to core/linear.py, core/mixed.py, core/holeless.py and core/holey.py
-/

namespace Clipping

variable {α : Type}

/-- What differs between the operations. -/
structure Ops (α : Type) extends Payload α where
  /-- `compute_fields(event, below_event)` (core/mixed.py:67-76, core/holeless.py:69-76,
  core/holey.py:72-86): the new fields of `event` -/
  compute : Heap α → Nat → Option Nat → α
  /-- `elif event not in sweep_line` (core/mixed.py:102, core/holeless.py:144, core/holey.py:168);
  absent from the linear operations -/
  skipPresent : Bool

/-- Events, queue and sweep line. -/
structure SweepState (α : Type) where
  store : Store α
  line : List Nat

/-- `self.compute_fields(event, below_event)` -/
def computeFields (O : Ops α) (s : Store α) (event : Nat) (below : Option Nat) : Store α :=
  { s with heap := s.heap.setData event (O.compute s.heap event below) }

/-- Checking the new event with the one above
(core/linear.py:117-118, core/mixed.py:107-111, core/holeless.py:150-154, core/holey.py:174-178). -/
def checkAbove (O : Ops α) (s : Store α) (event : Nat) (above below : Option Nat) :
    Except Err (Store α) :=
  match above with
  | none => .ok s
  | some a =>
    match detectIntersection O.toPayload s event a with
    | .error e => .error e
    | .ok (s, false) => .ok s
    | .ok (s, true) => .ok (computeFields O (computeFields O s event below) a (some event))

/-- Checking the new event with the one below
(core/linear.py:119-120, core/mixed.py:112-117, core/holeless.py:155-160, core/holey.py:179-184). -/
def checkBelow (O : Ops α) (line : List Nat) (s : Store α) (event : Nat) (below : Option Nat) :
    Except Err (Store α) :=
  match below with
  | none => .ok s
  | some b =>
    match detectIntersection O.toPayload s b event with
    | .error e => .error e
    | .ok (s, false) => .ok s
    | .ok (s, true) =>
      .ok (computeFields O (computeFields O s b (lineBelow s.heap line b)) event (some b))

/-- `process_event` for a left event (core/linear.py:114-120, core/mixed.py:102-117,
core/holeless.py:144-160, core/holey.py:168-184). -/
def processLeft (O : Ops α) (s : SweepState α) (event : Nat) : Except Err (SweepState α) :=
  if O.skipPresent && lineContains s.store.heap s.line event then .ok s
  else
    let line := lineAdd s.store.heap s.line event
    let above := lineAbove s.store.heap line event
    let below := lineBelow s.store.heap line event
    let s₁ := computeFields O s.store event below
    match checkAbove O s₁ event above below with
    | .error e => .error e
    | .ok s₂ =>
      match checkBelow O line s₂ event below with
      | .error e => .error e
      | .ok s₃ => .ok ⟨s₃, line⟩

/-- `process_event` for a right event, given its left event (core/linear.py:121-130,
core/mixed.py:93-101, core/holeless.py:134-143, core/holey.py:159-166). -/
def processRight (O : Ops α) (s : SweepState α) (event : Nat) : Except Err (SweepState α) :=
  if lineContains s.store.heap s.line event then
    let above := lineAbove s.store.heap s.line event
    let below := lineBelow s.store.heap s.line event
    let line := lineRemove s.store.heap s.line event
    match below, above with
    | some b, some a =>
      match detectIntersection O.toPayload s.store b a with
      | .error e => .error e
      | .ok (s', _) => .ok ⟨s', line⟩
    | _, _ => .ok ⟨s.store, line⟩
  else .ok s

/-- `process_event` -/
def processEvent (O : Ops α) (s : SweepState α) : Ev → Except Err (SweepState α)
  | .left i => processLeft O s i
  | .right j => processRight O s (s.store.heap.rights j).left

/-- The loop of `sweep` (core/linear.py:137-142,181-187,223-230,279-288, core/mixed.py:148-155,
205-211,247-254,290-295, core/holeless.py:214-218,247-251, core/holey.py:196-202,273-280,316-323,
364-372).  `stop` is the early exit (`if ... < event.start.x: break`).  The result lists the processed
events in order, each with its left event; the operations select from it what they append to
`result`.  The loop of the model takes at most `fuel` steps. -/
def sweepLoop (O : Ops α) (tb : TieBreak) (stop : Point → Bool) :
    Nat → SweepState α → List (Ev × Nat) → Except Err (SweepState α × List (Ev × Nat))
  | 0, _, _ => .error .outOfFuel
  | fuel + 1, s, log =>
    match pop tb s.store with
    | none => .ok (s, log.reverse)
    | some (e, queue) =>
      if stop (s.store.heap.evStart e) then .ok (s, log.reverse)
      else
        match processEvent O { s with store := { s.store with queue := queue } } e with
        | .error err => .error err
        | .ok s' => sweepLoop O tb stop fuel s' ((e, s'.store.heap.primary e) :: log)

/-- Number of steps which is always enough for `n` segments. -/
def sweepFuel (n : Nat) : Nat := 2 * (n + n * (2 * n + n * n)) + 1

/-- `sweep`: fill the queue with the segments of both operands and run the loop. -/
def sweep (O : Ops α) (data : α) (tb : TieBreak) (stop : Point → Bool) (first second : List Segment) :
    Except Err (SweepState α × List (Ev × Nat)) :=
  let s := register O.toPayload (register O.toPayload ⟨Heap.nothing data, []⟩ first true) second false
  sweepLoop O tb stop (sweepFuel (first.length + second.length)) ⟨s, []⟩ []

end Clipping
