import Mathlib.Algebra.Order.Field.Rat
import Mathlib.Order.Defs.LinearOrder
import Mathlib.Tactic.Linarith

/-!
# Primitives of the external library `ground`

`clipping` gets all geometry primitives from a `ground.base.Context`.  This file gives
executable definitions of the primitives used by the modelled code.  They are *external* to
the repository; `Verif/Lemmas/Relation.lean` proves that each of them is the documented
relation between point sets, which is all the rest of the development uses.

Coordinates are exact rationals.
-/

namespace Clipping

/-- `ground.hints.Point`: used throughout /repo/clipping (`point.x`, `point.y`, `==`, `<`). -/
structure Point where
  x : ℚ
  y : ℚ
deriving DecidableEq, Repr

namespace Point

@[ext] theorem ext' {p q : Point} (hx : p.x = q.x) (hy : p.y = q.y) : p = q := by
  cases p; cases q; simp_all

/-- Lexicographic order of points, as used by `start > end` (core/event.py:69,109,154,226,324),
`sorted([...])` of points (core/linear.py:471,505,526,536,557,591), `min`/`max` of points
(core/linear.py:582-585). -/
instance : LT Point := ⟨fun p q => p.x < q.x ∨ (p.x = q.x ∧ p.y < q.y)⟩

instance : LE Point := ⟨fun p q => p.x < q.x ∨ (p.x = q.x ∧ p.y ≤ q.y)⟩

theorem lt_def {p q : Point} : p < q ↔ p.x < q.x ∨ (p.x = q.x ∧ p.y < q.y) := Iff.rfl

theorem le_def {p q : Point} : p ≤ q ↔ p.x < q.x ∨ (p.x = q.x ∧ p.y ≤ q.y) := Iff.rfl

instance decLT : DecidableLT Point := fun p q =>
  inferInstanceAs (Decidable (p.x < q.x ∨ (p.x = q.x ∧ p.y < q.y)))

instance decLE : DecidableLE Point := fun p q =>
  inferInstanceAs (Decidable (p.x < q.x ∨ (p.x = q.x ∧ p.y ≤ q.y)))

instance : LinearOrder Point where
  le_refl p := Or.inr ⟨rfl, le_refl _⟩
  le_trans p q r h1 h2 := by
    rw [le_def] at *
    rcases h1 with h1 | ⟨h1, h1'⟩ <;> rcases h2 with h2 | ⟨h2, h2'⟩
    · exact Or.inl (h1.trans h2)
    · exact Or.inl (h2 ▸ h1)
    · exact Or.inl (h1 ▸ h2)
    · exact Or.inr ⟨h1.trans h2, h1'.trans h2'⟩
  le_antisymm p q h1 h2 := by
    rw [le_def] at *
    rcases h1 with h1 | ⟨h1, h1'⟩ <;> rcases h2 with h2 | ⟨h2, h2'⟩
    · exact absurd h1 (not_lt.2 h2.le)
    · exact absurd h1 (by rw [h2]; exact lt_irrefl _)
    · exact absurd h2 (by rw [h1]; exact lt_irrefl _)
    · exact ext' h1 (le_antisymm h1' h2')
  lt_iff_le_not_ge p q := by
    rw [le_def, lt_def, le_def]
    constructor
    · rintro (h | ⟨h, h'⟩)
      · exact ⟨Or.inl h, by rintro (g | ⟨g, -⟩) <;> linarith⟩
      · exact ⟨Or.inr ⟨h, h'.le⟩, by rintro (g | ⟨-, g⟩) <;> linarith⟩
    · rintro ⟨h | ⟨h, h'⟩, g⟩
      · exact Or.inl h
      · refine Or.inr ⟨h, ?_⟩
        by_contra hc
        exact g (Or.inr ⟨h.symm, not_lt.1 hc⟩)
  le_total p q := by
    rw [le_def, le_def]
    rcases lt_trichotomy p.x q.x with h | h | h
    · exact Or.inl (Or.inl h)
    · rcases le_total p.y q.y with g | g
      · exact Or.inl (Or.inr ⟨h, g⟩)
      · exact Or.inr (Or.inr ⟨h.symm, g⟩)
    · exact Or.inr (Or.inl h)
  toDecidableLE := decLE
  toDecidableLT := decLT
  toDecidableEq := inferInstance

end Point

/-- `ground.base.Orientation`. -/
inductive Orientation
  | clockwise
  | collinear
  | counterclockwise
deriving DecidableEq, Repr

/-- Twice the signed area of the triangle `a b c`. -/
def cross (a b c : Point) : ℚ := (b.x - a.x) * (c.y - a.y) - (b.y - a.y) * (c.x - a.x)

/-- `Context.angle_orientation(vertex, first_ray_point, second_ray_point)`
(the `orienteer` of core/hints.py, used in core/events_queue.py:63,103,
core/sweep_line.py:122-123,147-148, core/utils.py:53,85,91, core/linear.py:567-579). -/
def orientation (a b c : Point) : Orientation :=
  if 0 < cross a b c then .counterclockwise
  else if cross a b c < 0 then .clockwise
  else .collinear

/-- `ground.hints.Segment`. -/
structure Segment where
  start : Point
  stop : Point
deriving DecidableEq, Repr

namespace Segment

/-- A segment of positive length; ground rejects other segments by contract. -/
def Proper (s : Segment) : Prop := s.start ≠ s.stop

instance (s : Segment) : Decidable s.Proper := inferInstanceAs (Decidable (_ ≠ _))

/-- lexicographically smaller end point -/
def lo (s : Segment) : Point := min s.start s.stop

/-- lexicographically greater end point -/
def hi (s : Segment) : Point := max s.start s.stop

end Segment

/-- `ground.base.Relation`, restricted to the members that can relate two segments. -/
inductive Relation
  | disjoint
  | touch
  | cross
  | overlap
  | composite
  | equal
  | component
deriving DecidableEq, Repr

/-- `Context.segments_relation(test, goal)` (used in core/linear.py:335,354,372,395,445,466,
core/events_queue.py:129,213,303,383, core/bounding.py:188,202). -/
def segmentsRelation (test goal : Segment) : Relation :=
  let ts := test.lo
  let te := test.hi
  let gs := goal.lo
  let ge := goal.hi
  if ts = gs ∧ te = ge then .equal
  else
    let o1 := orientation gs ge ts
    let o2 := orientation gs ge te
    if o1 ≠ .collinear ∧ o1 = o2 then .disjoint
    else
      let o3 := orientation ts te gs
      let o4 := orientation ts te ge
      if o3 ≠ .collinear ∧ o3 = o4 then .disjoint
      else if o1 = .collinear ∧ o2 = .collinear then
        if ts = gs then (if te < ge then .component else .composite)
        else if te = ge then (if ts < gs then .composite else .component)
        else if ts = ge ∨ te = gs then .touch
        else if gs < ts ∧ ts < ge then (if te < ge then .component else .overlap)
        else if ts < gs ∧ gs < te then (if ge < te then .composite else .overlap)
        else .disjoint
      else if o1 = .collinear ∨ o2 = .collinear ∨ o3 = .collinear ∨ o4 = .collinear then .touch
      else .cross

/-- The point at parameter `t` of the segment. -/
def Segment.at (s : Segment) (t : ℚ) : Point :=
  ⟨s.start.x + t * (s.stop.x - s.start.x), s.start.y + t * (s.stop.y - s.start.y)⟩

/-- `Context.segments_intersection(first, second)` (used in core/linear.py:339,490,546,
core/events_queue.py:134,218,308,388); only called when the segments touch or cross. -/
def segmentsIntersection (first second : Segment) : Point :=
  let d := (first.stop.x - first.start.x) * (second.stop.y - second.start.y)
            - (first.stop.y - first.start.y) * (second.stop.x - second.start.x)
  if d = 0 then
    if first.start = second.start ∨ first.start = second.stop then first.start else first.stop
  else
    first.at (((second.start.x - first.start.x) * (second.stop.y - second.start.y)
                - (second.start.y - first.start.y) * (second.stop.x - second.start.x)) / d)

/-- `ground.hints.Box`. -/
structure Box where
  minX : ℚ
  maxX : ℚ
  minY : ℚ
  maxY : ℚ
deriving DecidableEq, Repr

/-- `Context.segment_box(segment)` (core/bounding.py:185,199). -/
def segmentBox (s : Segment) : Box :=
  ⟨min s.start.x s.stop.x, max s.start.x s.stop.x, min s.start.y s.stop.y, max s.start.y s.stop.y⟩

/-- Smallest box containing two boxes. -/
def Box.join (a b : Box) : Box :=
  ⟨min a.minX b.minX, max a.maxX b.maxX, min a.minY b.minY, max a.maxY b.maxY⟩

/-- `Context.segments_box(segments)` (core/linear.py:150,195,238,296,318); the real function
raises on an empty sequence, here the head is a separate argument. -/
def segmentsBox (s : Segment) (rest : List Segment) : Box :=
  rest.foldl (fun b t => b.join (segmentBox t)) (segmentBox s)

end Clipping
