import Verif.Model.EventsQueue

/-!
# Model of core/sweep_line.py

The red-black tree of `dendroid` is modelled by the list of its values in order, from the lowest one
up.  Look-ups use the same comparisons as the tree.
-/

namespace Clipping

variable {α : Type}

/-- `BinarySweepLineKey.__lt__` (core/sweep_line.py:112-158). -/
def lineLt (h : Heap α) (event other : Nat) : Bool :=
  if event = other then false
  else
    let start := h.start event
    let otherStart := h.start other
    let stop := h.stop event
    let otherStop := h.stop other
    let otherStartOrientation := orientation start stop otherStart
    let otherEndOrientation := orientation start stop otherStop
    if otherStartOrientation = otherEndOrientation then
      if otherStartOrientation ≠ .collinear then
        -- other segment fully lies on one side
        decide (otherStartOrientation = .counterclockwise)
      -- segments are collinear
      else if h.first event ≠ h.first other then h.first event
      else if start.x = otherStart.x then
        if start.y ≠ otherStart.y then
          -- segments are vertical
          decide (start.y < otherStart.y)
        -- segments have same start
        else if stop.y ≠ otherStop.y then decide (stop.y < otherStop.y)
        -- segments are horizontal
        else decide (stop.x < otherStop.x)
      else if start.y ≠ otherStart.y then decide (start.y < otherStart.y)
      -- segments are horizontal
      else decide (start.x < otherStart.x)
    else
      let startOrientation := orientation otherStart otherStop start
      let endOrientation := orientation otherStart otherStop stop
      if startOrientation = endOrientation then decide (startOrientation = .clockwise)
      else if otherStartOrientation = .collinear then decide (otherEndOrientation = .counterclockwise)
      else if startOrientation = .collinear then decide (endOrientation = .clockwise)
      else if endOrientation = .collinear then decide (startOrientation = .clockwise)
      else decide (otherStartOrientation = .counterclockwise)

/-- Two keys are the same for the tree if neither is less. -/
def lineEq (h : Heap α) (event other : Nat) : Bool := !lineLt h event other && !lineLt h other event

/-- Place of the value with the same key. -/
def lineFind (h : Heap α) (line : List Nat) (event : Nat) : Option Nat :=
  line.findIdx? (lineEq h event)

/-- `event in sweep_line` (core/sweep_line.py:52-53). -/
def lineContains (h : Heap α) (line : List Nat) (event : Nat) : Bool := line.any (lineEq h event)

/-- `sweep_line.add(event)` (core/sweep_line.py:55-56): nothing happens if the key is there. -/
def lineAdd (h : Heap α) (line : List Nat) (event : Nat) : List Nat :=
  if lineContains h line event then line
  else line.takeWhile (fun x => !lineLt h event x) ++ event :: line.dropWhile (fun x => !lineLt h event x)

/-- `sweep_line.remove(event)` (core/sweep_line.py:58-59). -/
def lineRemove (h : Heap α) (line : List Nat) (event : Nat) : List Nat :=
  match lineFind h line event with
  | none => line
  | some i => line.eraseIdx i

/-- `sweep_line.above(event)` (core/sweep_line.py:61-65): the next value. -/
def lineAbove (h : Heap α) (line : List Nat) (event : Nat) : Option Nat :=
  match lineFind h line event with
  | none => none
  | some i => line[i + 1]?

/-- `sweep_line.below(event)` (core/sweep_line.py:67-71): the previous value. -/
def lineBelow (h : Heap α) (line : List Nat) (event : Nat) : Option Nat :=
  match lineFind h line event with
  | none => none
  | some 0 => none
  | some (i + 1) => line[i]?

end Clipping
