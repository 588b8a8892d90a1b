import Verif.Spec.Complete
import Verif.Spec.Region

/-!
# Geometries with the same parts
-/

namespace Clipping

/-- The geometries have the same isolated points, the same points of segments, and the same region. -/
structure SameParts (g g' : Geometry) : Prop where
  discrete : g.discretePoints.Perm g'.discretePoints
  linear : segsPts g.linearSegments = segsPts g'.linearSegments
  shaped : regionPts (g.shapedPolygons.flatMap Polygon.edges) = regionPts (g'.shapedPolygons.flatMap Polygon.edges)

end Clipping
