import Verif.Spec.PointSet

/-!
# Specification vocabulary: the arrangement of segments
-/

namespace Clipping

/-- Vertices of the arrangement of some segments: end points, and points which are the only common point
of two of the segments. -/
def Vertex (l : List Segment) (p : Point) : Prop :=
  (∃ s ∈ l, s.IsEnd p) ∨ ∃ s ∈ l, ∃ t ∈ l, s.pts ∩ t.pts = {p}

/-- Edges of the arrangement: parts of segments from a vertex to the next one, directed upwards in the
lexicographic order. -/
structure IsEdge (l : List Segment) (e : Segment) : Prop where
  lt : e.start < e.stop
  start : Vertex l e.start
  stop : Vertex l e.stop
  within : ∃ s ∈ l, e.pts ⊆ s.pts
  inner : ∀ q ∈ e.pts, Vertex l q → e.IsEnd q

/-- The edge is a part of one of the segments. -/
def PartOf (e : Segment) (l : List Segment) : Prop := ∃ s ∈ l, e.pts ⊆ s.pts

/-- The lists have the same segments, apart from order, direction and repetitions. -/
def SameSegments (a b : List Segment) : Prop :=
  (∀ s ∈ a, ∃ t ∈ b, s.lo = t.lo ∧ s.hi = t.hi) ∧ ∀ t ∈ b, ∃ s ∈ a, s.lo = t.lo ∧ s.hi = t.hi

end Clipping
