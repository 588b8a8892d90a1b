import Verif.Spec.Geometry
import Mathlib.Data.List.Rotate

/-!
# Specification vocabulary: the same geometry, written in another way

A contour may be written from any of its vertices and in any direction, the holes of a polygon and the polygons of a
multipolygon may be written in any order.
-/

namespace Clipping

/-- The lists have the same elements up to `R` and order. -/
def Matched {α : Type} (R : α → α → Prop) (l l' : List α) : Prop := ∃ m, List.Forall₂ R l m ∧ m.Perm l'

/-- The vertices are the same, from another one on or in the other direction. -/
def SameContour (c c' : Contour) : Prop :=
  c.vertices ~r c'.vertices ∨ c.vertices.reverse ~r c'.vertices

/-- The borders are the same, and the holes are the same in any order. -/
structure SamePolygon (p p' : Polygon) : Prop where
  border : SameContour p.border p'.border
  holes : Matched SameContour p.holes p'.holes

/-- The same regions in any order. -/
def SameRegions (cs cs' : List Contour) : Prop := Matched SameContour cs cs'

/-- The same polygons in any order. -/
def SamePolygons (ps ps' : List Polygon) : Prop := Matched SamePolygon ps ps'

end Clipping
