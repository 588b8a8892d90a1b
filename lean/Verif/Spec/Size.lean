import Verif.Spec.Contacts
import Verif.Spec.Outline

/-!
# Specification vocabulary: the number of vertices of polygons
-/

namespace Clipping

/-- The number of vertices of all borders and holes. -/
def vertexCount (ps : List Polygon) : ℕ :=
  ((ps.flatMap fun p => p.border :: p.holes).map fun c => c.vertices.length).sum

end Clipping
