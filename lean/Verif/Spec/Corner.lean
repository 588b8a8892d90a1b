import Verif.Spec.Polygon

/-!
# Places at which something of the operands happens
-/

namespace Clipping

/-- An end of an edge of an operand, or the only common point of an edge of one operand and an edge of the other one. -/
def IsCorner (A B : List Segment) (v : Point) : Prop :=
  (∃ s ∈ A ++ B, s.IsEnd v) ∨ ∃ s ∈ A, ∃ t ∈ B, s.pts ∩ t.pts = {v}

/-- All vertices of the polygons are such places. -/
def CornersOnly (A B : List Segment) (ps : List Polygon) : Prop :=
  ∀ p ∈ ps, ∀ c ∈ p.border :: p.holes, ∀ v ∈ c.vertices, IsCorner A B v

end Clipping
