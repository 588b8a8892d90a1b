import Verif.Ground.Basic
import Mathlib.Data.Set.Basic
import Mathlib.Data.Set.Finite.Basic

/-!
# Specification vocabulary: point sets of segments and boxes
-/

namespace Clipping

/-- Points of a segment: the convex combinations of its end points. -/
def Segment.pts (s : Segment) : Set Point :=
  {p | ∃ t : ℚ, 0 ≤ t ∧ t ≤ 1 ∧ p.x = s.start.x + t * (s.stop.x - s.start.x) ∧
        p.y = s.start.y + t * (s.stop.y - s.start.y)}

/-- `p` is one of the two end points. -/
def Segment.IsEnd (s : Segment) (p : Point) : Prop := p = s.start ∨ p = s.stop

/-- Points of a list of segments. -/
def segsPts (l : List Segment) : Set Point := {p | ∃ s ∈ l, p ∈ s.pts}

/-- Points of a (closed) box. -/
def Box.pts (b : Box) : Set Point := {p | b.minX ≤ p.x ∧ p.x ≤ b.maxX ∧ b.minY ≤ p.y ∧ p.y ≤ b.maxY}

/-- Two segments overlap: they share more than one point. -/
def Overlapping (s t : Segment) : Prop := ∃ p q, p ≠ q ∧ p ∈ s.pts ∧ q ∈ s.pts ∧ p ∈ t.pts ∧ q ∈ t.pts

/-- Two segments cross: they share a point which is an end point of neither. -/
def Crossing (s t : Segment) : Prop := ∃ p ∈ s.pts, p ∈ t.pts ∧ ¬ s.IsEnd p ∧ ¬ t.IsEnd p

/-- Valid collection of segments (the validity of a ground `Multisegment`, apart from the number
of segments): proper segments, no two of which overlap or cross. -/
def ValidSegments (l : List Segment) : Prop :=
  (∀ s ∈ l, s.Proper) ∧ l.Pairwise (fun s t => ¬ Overlapping s t ∧ ¬ Crossing s t)

/-- Proper segments no two of which overlap. -/
def NoOverlap (l : List Segment) : Prop := (∀ s ∈ l, s.Proper) ∧ l.Pairwise fun s t => ¬ Overlapping s t

/-- Every two segments of the list meet only in end points of both. -/
def EndsOnly (l : List Segment) : Prop :=
  l.Pairwise fun s t => ∀ q, q ∈ s.pts → q ∈ t.pts → s.IsEnd q ∧ t.IsEnd q

/-- The segment contains no corner of the box, except as an end point. -/
def NoCornerInside (b : Box) (s : Segment) : Prop :=
  ∀ v, (v.x = b.minX ∨ v.x = b.maxX) → (v.y = b.minY ∨ v.y = b.maxY) → v ∈ s.pts → s.IsEnd v

/-- `A` is the regularized version of `B`: they differ in finitely many points only. -/
def AlmostEq (A B : Set Point) : Prop := (A \ B).Finite ∧ (B \ A).Finite

end Clipping
