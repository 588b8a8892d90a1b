import Mathlib.Data.List.Rotate
import Verif.Spec.Normal
import Verif.Spec.Touch

/-!
# Specification vocabulary: polygons written without superfluous vertices
-/

namespace Clipping

/-- No three consecutive vertices (in cyclic order) are on a line. -/
def Contour.Cornered (c : Contour) : Prop := ∀ u v w rest, c.vertices ~r (u :: v :: w :: rest) → cross u v w ≠ 0

/-- Borders and holes of the polygons. -/
def contoursOf (ps : List Polygon) : List Contour := ps.flatMap fun p => p.border :: p.holes

/-- Valid polygons, the contours of which do not touch each other and have no three consecutive vertices on a line. -/
structure Separate (ps : List Polygon) : Prop where
  valid : ValidPolygons ps
  detached : Detached ps
  cornered : ∀ c ∈ contoursOf ps, c.Cornered

/-- The polygons are in normal form, borders are counterclockwise and holes clockwise. -/
structure Standard (ps : List Polygon) : Prop where
  normal : NormalPolygons ps
  oriented : ∀ p ∈ ps, p.Oriented

end Clipping
