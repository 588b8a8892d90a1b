import Verif.Model.Geometry
import Verif.Model.EventsQueue

/-!
# Model of the functions on contours of core/utils.py

By contract contours have at least three vertices.  Functions which raise on a contour without vertices
(`min` of an empty sequence) have some value there in the model.
-/

namespace Clipping

/-- `vertices[index]` for `0 ≤ index < len(vertices)` -/
def vertexAt (vertices : List Point) (index : Nat) : Point := vertices.getD index ⟨0, 0⟩

/-- `vertices[index - 1]`; Python takes the last vertex for `index = 0` -/
def vertexBefore (vertices : List Point) (index : Nat) : Point :=
  vertexAt vertices (if index = 0 then vertices.length - 1 else index - 1)

/-- `min(range(len(vertices)), key=vertices.__getitem__)` (core/utils.py:51-52): the index of the first
of the least vertices -/
def minIndex (vertices : List Point) : Nat := vertices.findIdx fun v => vertices.all fun w => decide (v ≤ w)

/-- `to_contour_orientation` (core/utils.py:49-54) -/
def contourOrientation (contour : Contour) : Orientation :=
  let vertices := contour.vertices
  let index := minIndex vertices
  orientation (vertexBefore vertices index) (vertexAt vertices index)
    (vertexAt vertices ((index + 1) % vertices.length))

/-- `contour_to_oriented_edges_endpoints` (core/utils.py:34-46) -/
def contourEdges (contour : Contour) (clockwise : Bool) : List Segment :=
  let vertices := contour.vertices
  if contourOrientation contour = (if clockwise then .clockwise else .counterclockwise) then
    (List.range vertices.length).map fun index => ⟨vertexBefore vertices index, vertexAt vertices index⟩
  else
    (List.range vertices.length).reverse.map fun index =>
      ⟨vertexAt vertices index, vertexBefore vertices index⟩

/-- `polygon_to_oriented_edges_endpoints` (core/utils.py:26-31) -/
def polygonEdges (polygon : Polygon) : List Segment :=
  contourEdges polygon.border false ++ polygon.holes.flatMap fun hole => contourEdges hole true

/-- `Context.contour_segments` (core/bounding.py:230,264,272,290): the edges of the contour -/
def contourSegments (contour : Contour) : List Segment :=
  (List.range contour.vertices.length).map fun index =>
    ⟨vertexBefore contour.vertices index, vertexAt contour.vertices index⟩

/-- Box of a point. -/
def pointBox (p : Point) : Box := ⟨p.x, p.x, p.y, p.y⟩

/-- `Context.contour_box` (core/bounding.py:239,251,265,281,300,330) -/
def contourBox (contour : Contour) : Box :=
  match contour.vertices with
  | [] => ⟨0, 0, 0, 0⟩
  | p :: rest => rest.foldl (fun b q => b.join (pointBox q)) (pointBox p)

/-- `Context.polygons_box` (core/mixed.py:125,164,222,262): the box of the borders; fails for no
polygons. -/
def polygonsBox : List Polygon → Except Err Box
  | [] => .error .emptyOperand
  | p :: rest => .ok (rest.foldl (fun b q => b.join (contourBox q.border)) (contourBox p.border))

/-- `to_polygons_x_max` (core/utils.py:70-73): the greatest abscissa of the vertices of the borders;
fails for no vertices. -/
def polygonsMaxX (polygons : List Polygon) : Except Err ℚ :=
  match polygons.flatMap fun polygon => polygon.border.vertices with
  | [] => .error .emptyOperand
  | p :: rest => .ok (rest.foldl (fun m q => max m q.x) p.x)

end Clipping
