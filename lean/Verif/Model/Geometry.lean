import Verif.Ground.Basic

/-!
# Geometries returned by the planar operations (classes of `ground.hints`)
-/

namespace Clipping

/-- `ground.hints.Contour`: vertices in cyclic order. -/
structure Contour where
  vertices : List Point
deriving DecidableEq, Repr

/-- `ground.hints.Polygon`. -/
structure Polygon where
  border : Contour
  holes : List Contour
deriving DecidableEq, Repr

/-- Values of the union types returned in /repo/clipping/planar.py
(`Empty`, `Multipoint`, `Segment`, `Multisegment`, `Polygon`, `Multipolygon`, `Mix`). -/
inductive Geometry
  | empty
  | multipoint (points : List Point)
  | segment (s : Segment)
  | multisegment (segments : List Segment)
  | polygon (p : Polygon)
  | multipolygon (polygons : List Polygon)
  | mix (discrete linear shaped : Geometry)
deriving Repr

/-- `value is context.empty`: there is one `Empty` object per context. -/
def Geometry.isEmpty : Geometry → Bool
  | .empty => true
  | _ => false

end Clipping
