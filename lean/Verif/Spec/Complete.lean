import Verif.Spec.Outline

/-!
# Specification vocabulary: complete intersections
-/

namespace Clipping

/-- The isolated points of a geometry. -/
def Geometry.discretePoints : Geometry → List Point
  | .multipoint ps => ps
  | .mix d _ _ => d.discretePoints
  | _ => []

/-- The segments of a geometry. -/
def Geometry.linearSegments : Geometry → List Segment
  | .segment s => [s]
  | .multisegment l => l
  | .mix _ l _ => l.linearSegments
  | _ => []

/-- The polygons of a geometry. -/
def Geometry.shapedPolygons : Geometry → List Polygon
  | .polygon p => [p]
  | .multipolygon ps => ps
  | .mix _ _ s => s.shapedPolygons
  | _ => []

/-- no points or a multipoint -/
def Geometry.IsDiscrete : Geometry → Prop
  | .empty => True
  | .multipoint ps => ps ≠ []
  | _ => False

/-- no segments, a segment, or a multisegment of at least two segments -/
def Geometry.IsLinear : Geometry → Prop
  | .empty => True
  | .segment _ => True
  | .multisegment l => 2 ≤ l.length
  | _ => False

/-- no polygons, a polygon, or a multipolygon of at least two polygons -/
def Geometry.IsPolygonal : Geometry → Prop
  | .empty => True
  | .polygon _ => True
  | .multipolygon ps => 2 ≤ ps.length
  | _ => False

/-- The geometry has the simplest type for its parts: a mix has at least two kinds of them. -/
def Geometry.Canonical : Geometry → Prop
  | .mix d l s => d.IsDiscrete ∧ l.IsLinear ∧ s.IsPolygonal ∧
      ((d ≠ .empty ∧ l ≠ .empty) ∨ (d ≠ .empty ∧ s ≠ .empty) ∨ (l ≠ .empty ∧ s ≠ .empty))
  | g => g.IsDiscrete ∨ g.IsLinear ∨ g.IsPolygonal

/-- The points, the segments and the region are together the intersection of `X` and `Y`.  The points are in none of the
other parts, and the segments meet each other and the region in their end points only. -/
structure CompleteParts (X Y : Set Point) (points : List Point) (segments : List Segment) (region : Set Point) : Prop where
  all : ∀ q, (q ∈ points ∨ q ∈ segsPts segments ∨ q ∈ region) ↔ q ∈ X ∧ q ∈ Y
  nodup : points.Nodup
  sorted : points.Pairwise (· ≤ ·)
  alone : ∀ q ∈ points, q ∉ segsPts segments ∧ q ∉ region
  directed : ∀ t ∈ segments, t.start < t.stop
  endsOnly : EndsOnly segments
  meet : ∀ t ∈ segments, ∀ q ∈ t.pts, q ∈ region → t.IsEnd q

end Clipping
