import Verif.Spec.Complete

/-!
# Specification vocabulary: affine maps of the plane
-/

namespace Clipping

/-- Affine maps of the plane which can be reversed: translations, rotations, reflections (of coordinates too), scalings, shears and
their compositions. -/
structure Affine where
  a : ℚ
  b : ℚ
  c : ℚ
  d : ℚ
  e : ℚ
  f : ℚ
  det : a * d - b * c ≠ 0

namespace Affine

/-- image of a point -/
def point (T : Affine) (p : Point) : Point := ⟨T.a * p.x + T.b * p.y + T.e, T.c * p.x + T.d * p.y + T.f⟩

/-- image of a segment -/
def segment (T : Affine) (s : Segment) : Segment := ⟨T.point s.start, T.point s.stop⟩

/-- image of a contour -/
def contour (T : Affine) (c : Contour) : Contour := ⟨c.vertices.map T.point⟩

/-- image of a polygon -/
def polygon (T : Affine) (p : Polygon) : Polygon := ⟨T.contour p.border, p.holes.map T.contour⟩

/-- Vertical lines are mapped to vertical lines, and both coordinates keep their directions: translations, scalings with positive factors,
vertical shears and their compositions. -/
structure Upright (T : Affine) : Prop where
  vertical : T.b = 0
  right : 0 < T.a
  up : 0 < T.d

/-- exchange of the coordinates -/
def reversal : Affine := ⟨0, 1, 1, 0, 0, 0, by norm_num⟩

/-- translation -/
def translation (x y : ℚ) : Affine := ⟨1, 0, 0, 1, x, y, by norm_num⟩

end Affine

/-- The isolated points of `g'` are the images of those of `g`, and the same holds for the points of segments and for the regions. -/
structure PartsImage (T : Affine) (g g' : Geometry) : Prop where
  discrete : g'.discretePoints.Perm (g.discretePoints.map T.point)
  linear : segsPts g'.linearSegments = T.point '' segsPts g.linearSegments
  shaped : regionPts (g'.shapedPolygons.flatMap Polygon.edges) = T.point '' regionPts (g.shapedPolygons.flatMap Polygon.edges)

end Clipping
