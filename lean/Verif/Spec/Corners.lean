import Verif.Spec.Arrangement
import Verif.Spec.Complete

/-!
# Specification vocabulary: vertices of polygons
-/

namespace Clipping

/-- The vertices of the borders and holes of the polygons of the geometry. -/
def Geometry.corners (g : Geometry) : List Point :=
  g.shapedPolygons.flatMap fun p => p.border.vertices ++ p.holes.flatMap Contour.vertices

end Clipping
