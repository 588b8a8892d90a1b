import Verif.Spec.Polygon
import Mathlib.Algebra.Order.Group.Unbundled.Abs
import Mathlib.Algebra.BigOperators.Group.List.Basic

/-!
# Specification vocabulary: areas
-/

namespace Clipping

/-- twice the signed area which the directed edges of closed curves run around (the shoelace formula) -/
def shoelace (E : List Segment) : ℚ := (E.map fun e => e.start.x * e.stop.y - e.stop.x * e.start.y).sum

/-- area of a contour, in whichever direction its vertices are given -/
def Contour.area (c : Contour) : ℚ := |shoelace c.edges| / 2

/-- area of the border without the areas of the holes -/
def Polygon.area (p : Polygon) : ℚ := p.border.area - (p.holes.map Contour.area).sum

/-- area of polygons -/
def polysArea (ps : List Polygon) : ℚ := (ps.map Polygon.area).sum

end Clipping
