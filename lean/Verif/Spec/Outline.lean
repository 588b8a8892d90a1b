import Verif.Spec.Overlay

/-!
# Specification vocabulary: polygons whose contours are the boundary of a Boolean combination
-/

namespace Clipping

/-- The polygons of a geometry which is empty, a polygon or a multipolygon. -/
def Geometry.polygons : Geometry → List Polygon
  | .polygon p => [p]
  | .multipolygon ps => ps
  | _ => []

/-- The geometry is empty, a polygon or a multipolygon of at least one polygon. -/
def Geometry.IsShaped : Geometry → Prop
  | .empty => True
  | .polygon _ => True
  | .multipolygon ps => ps ≠ []
  | _ => False

/-- The region with all contours of the polygons `ps` is on the inner side of the borders and on the outer side of
the holes: at an inner point of an edge which is on no other edge, the rays down from it tell on which side of the edge
the region with all contours and the interior of this contour are. -/
structure Sided (ps : List Polygon) : Prop where
  border : ∀ p ∈ ps, ∀ e ∈ p.border.edges, ∀ q ∈ e.pts, ¬ e.IsEnd q →
    (∀ e' ∈ ps.flatMap Polygon.edges, q ∈ e'.pts → e' = e) →
    (Inside (ps.flatMap Polygon.edges) q ↔ Inside p.border.edges q)
  hole : ∀ p ∈ ps, ∀ c ∈ p.holes, ∀ e ∈ c.edges, ∀ q ∈ e.pts, ¬ e.IsEnd q →
    (∀ e' ∈ ps.flatMap Polygon.edges, q ∈ e'.pts → e' = e) →
    (Inside (ps.flatMap Polygon.edges) q ↔ ¬ Inside c.edges q)

/-- The contours of the polygons `ps` are simple, do not overlap, consist of parts of the edges `A` and `B`, and are
together the boundary of the combination of the regions with these edges: a point which is on none of the edges
is in the combination exactly if the ray down from it crosses an odd number of edges of the contours.  Borders have the
combination inside, holes outside.  Every hole is within the border of one of the polygons. -/
structure Outlines (op : Bool → Bool → Bool) (A B : List Segment) (ps : List Polygon) : Prop where
  border : ∀ p ∈ ps, SimpleContour p.border
  hole : ∀ p ∈ ps, ∀ c ∈ p.holes, SimpleContour c
  noOverlap : NoOverlap (ps.flatMap Polygon.edges)
  within : segsPts (ps.flatMap Polygon.edges) ⊆ segsPts (A ++ B)
  inside : ∀ q, q ∉ segsPts (A ++ B) → (Inside (ps.flatMap Polygon.edges) q ↔ Combined op A B q)
  sides : Sided ps
  held : ∀ p ∈ ps, ∀ c ∈ p.holes, ∃ p' ∈ ps, regionPts c.edges ⊆ regionPts p'.border.edges

/-- The border has its interior on the left, holes have it on the right. -/
def Polygon.Oriented (p : Polygon) : Prop :=
  (∀ e ∈ p.border.edges, InteriorOnLeft p.border.edges e) ∧
    ∀ c ∈ p.holes, ∀ e ∈ c.edges, InteriorOnLeft c.edges ⟨e.stop, e.start⟩

end Clipping
