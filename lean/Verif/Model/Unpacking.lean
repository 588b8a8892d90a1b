import Verif.Model.Geometry

/-! # Model of /repo/clipping/core/unpacking.py -/

namespace Clipping

/-- core/unpacking.py:72-78 `unpack_segments` -/
def unpackSegments (segments : List Segment) : Geometry :=
  match segments with
  | [] => .empty
  | [s] => .segment s
  | s :: t :: rest => .multisegment (s :: t :: rest)

/-- core/unpacking.py:47-49 `unpack_points` -/
def unpackPoints (points : List Point) : Geometry :=
  match points with
  | [] => .empty
  | p :: rest => .multipoint (p :: rest)

/-- core/unpacking.py:52-58 `unpack_polygons` -/
def unpackPolygons (polygons : List Polygon) : Geometry :=
  match polygons with
  | [] => .empty
  | [p] => .polygon p
  | p :: q :: rest => .multipolygon (p :: q :: rest)

/-- core/unpacking.py:61-69 `unpack_regions` -/
def unpackRegions (regions : List Contour) : Geometry :=
  match regions with
  | [] => .empty
  | [r] => .polygon ⟨r, []⟩
  | r :: s :: rest => .multipolygon ((r :: s :: rest).map fun c => ⟨c, []⟩)

/-- core/unpacking.py:19-27 `unpack_linear_mix` -/
def unpackLinearMix (discrete linear : Geometry) : Geometry :=
  if discrete.isEmpty then linear
  else if linear.isEmpty then discrete
  else .mix discrete linear .empty

/-- core/unpacking.py:30-44 `unpack_mix` -/
def unpackMix (discrete linear shaped : Geometry) : Geometry :=
  if discrete.isEmpty then
    (if linear.isEmpty then shaped
     else if shaped.isEmpty then linear
     else .mix discrete linear shaped)
  else
    (if shaped.isEmpty && linear.isEmpty then discrete
     else .mix discrete linear shaped)

end Clipping
