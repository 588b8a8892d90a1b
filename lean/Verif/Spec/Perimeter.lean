import Verif.Spec.Length
import Verif.Spec.Polygon

/-!
# Specification vocabulary: perimeters of polygons
-/

namespace Clipping

/-- The length of all contours of polygons, of borders and of holes. -/
def Length.perimeter (N : Length) (ps : List Polygon) : ℝ := N.total (ps.flatMap Polygon.edges)

end Clipping
