import Verif.Spec.Region
import Verif.Spec.Geometry

/-!
# Specification vocabulary: valid polygons and multipolygons
-/

namespace Clipping

/-- Simple closed curve: at least three vertices, no repetition, edges meet in ends of both only. -/
structure SimpleContour (c : Contour) : Prop where
  three : 3 ≤ c.vertices.length
  nodup : c.vertices.Nodup
  ends : EndsOnly c.edges

/-- The points near `m`. -/
def Near (δ : ℚ) (m q : Point) : Prop := |q.x - m.x| < δ ∧ |q.y - m.y| < δ

/-- Near every point of `e` which is on no other of the edges and not an end, the points on the left of `e` are in
the interior of the region with the edges `E` and the points on its right are not in the region. -/
def InteriorOnLeft (E : List Segment) (e : Segment) : Prop :=
  ∀ m ∈ e.pts, ¬ e.IsEnd m → (∀ e' ∈ E, m ∈ e'.pts → e'.pts = e.pts) →
    ∃ δ > 0, ∀ q, Near δ m q →
      (0 < cross e.start e.stop q → Inside E q ∧ q ∉ segsPts E) ∧
      (cross e.start e.stop q < 0 → ¬ Inside E q ∧ q ∉ segsPts E)

/-- Edges of the border and of the holes. -/
def Polygon.edges (p : Polygon) : List Segment := p.border.edges ++ p.holes.flatMap Contour.edges

/-- No point of the region with the edges `A` is an interior point of the one with the edges `B`. -/
def Apart (A B : List Segment) : Prop := ∀ m ∈ regionPts A, m ∉ segsPts B → ¬ Inside B m

/-- Valid polygon: border and holes are simple and do not overlap, holes are within the border (they may touch
it), holes do not have common interior points, no point of the border is inside of a hole. -/
structure ValidPolygon (p : Polygon) : Prop where
  border : SimpleContour p.border
  holes : ∀ h ∈ p.holes, SimpleContour h
  noOverlap : NoOverlap p.edges
  inside : ∀ h ∈ p.holes, regionPts h.edges ⊆ regionPts p.border.edges
  outside : ∀ h ∈ p.holes, ∀ m ∈ segsPts p.border.edges, m ∉ segsPts h.edges → ¬ Inside h.edges m
  apart : p.holes.Pairwise fun h h' => Apart h.edges h'.edges ∧ Apart h'.edges h.edges

/-- Valid polygons no two of which have common interior points or overlapping edges. -/
structure ValidPolygons (ps : List Polygon) : Prop where
  valid : ∀ p ∈ ps, ValidPolygon p
  noOverlap : NoOverlap (ps.flatMap Polygon.edges)
  apart : ps.Pairwise fun p q => Apart p.edges q.edges ∧ Apart q.edges p.edges

/-- Points of polygons. -/
def polysPts (ps : List Polygon) : Set Point := {m | ∃ p ∈ ps, m ∈ p.pts}

end Clipping
