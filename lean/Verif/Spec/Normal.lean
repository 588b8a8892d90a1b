import Mathlib.Data.List.Rotate
import Verif.Spec.Outline

/-!
# Specification vocabulary: the normal form of polygons
-/

namespace Clipping

/-- The contour starts with its least vertex (the leftmost one, of several ones the lowest), and no three consecutive vertices (in
cyclic order) are on a line. -/
structure Contour.Normal (c : Contour) : Prop where
  least : ∃ v vs, c.vertices = v :: vs ∧ ∀ w ∈ vs, v < w
  corners : ∀ u v w rest, c.vertices ~r (u :: v :: w :: rest) → cross u v w ≠ 0

/-- The first vertex of `c` is not after the first vertex of `d`. -/
def Contour.StartsBefore (c d : Contour) : Prop := ∀ v ∈ c.vertices.head?, ∀ w ∈ d.vertices.head?, v ≤ w

/-- Borders are sorted by their first vertices. -/
def SortedBorders (ps : List Polygon) : Prop := ps.Pairwise fun p q => p.border.StartsBefore q.border

/-- Contours are in normal form, polygons are sorted by the first vertices of their borders, and the holes of a polygon by their
first vertices, which are not before the first vertex of the border. -/
structure NormalPolygons (ps : List Polygon) : Prop where
  border : ∀ p ∈ ps, p.border.Normal
  hole : ∀ p ∈ ps, ∀ c ∈ p.holes, c.Normal
  sorted : SortedBorders ps
  holes : ∀ p ∈ ps, (p.border :: p.holes).Pairwise Contour.StartsBefore

end Clipping
