import Verif.Spec.Complete

/-!
# Specification vocabulary: types of results
-/

namespace Clipping

/-- a geometry of the simplest type for its parts, without polygons -/
def Geometry.Thin (g : Geometry) : Prop := g.Canonical ∧ g.shapedPolygons = []

/-- a geometry of the simplest type for its parts, without isolated points -/
def Geometry.Pointless (g : Geometry) : Prop := g.Canonical ∧ g.discretePoints = []

end Clipping
