import Verif.Model.Bounding
import Verif.Model.Contours

/-!
# Model of the functions of /repo/clipping/core/bounding.py about boxes and polygons

They call three functions of the external library `orient`, which are parameters here.
-/

namespace Clipping

/-- `ground.base.Location` -/
inductive Location
  | exterior
  | boundary
  | interior
deriving DecidableEq, Repr

/-- The members of `ground.base.Relation` which can relate a segment to a contour or region. -/
inductive ShapeRelation
  | disjoint
  | touch
  | cross
  | overlap
  | component
  | enclosed
  | within
deriving DecidableEq, Repr

/-- The functions of `orient.planar` which core/bounding.py imports (core/bounding.py:12-14). -/
structure Orient where
  pointInRegion : Point → Contour → Location
  segmentInContour : Segment → Contour → ShapeRelation
  segmentInRegion : Segment → Contour → ShapeRelation

variable (orient : Orient)

/-- core/bounding.py:207-216 `is_subset_of_region` -/
def isSubsetOfRegion (box : Box) (border : Contour) : Bool :=
  (toEdges box).all fun segment =>
    [ShapeRelation.component, .enclosed, .within].contains (orient.segmentInRegion segment border)

/-- core/bounding.py:219-230 `within_of_region` -/
def withinOfRegion (box : Box) (border : Contour) : Bool :=
  ((toVertices box).all fun vertex => decide (orient.pointInRegion vertex border = .interior))
    && (toEdges box).all fun edge => (contourSegments border).all fun borderEdge =>
      decide (segmentsRelation edge borderEdge = .disjoint)

/-- core/bounding.py:233-241 `is_subset_of_multiregion` -/
def isSubsetOfMultiregion (box : Box) (multiregion : List Contour) : Bool :=
  multiregion.any fun region => isSubsetOf box (contourBox region) && isSubsetOfRegion orient box region

/-- core/bounding.py:244-272 `intersects_with_polygon` -/
def intersectsWithPolygon (box : Box) (polygon : Polygon) : Bool :=
  let border := polygon.border
  let polygonBox := contourBox border
  if !intersectsWith polygonBox box then false
  else if isSubsetOf polygonBox box || border.vertices.any fun vertex => containsPoint box vertex then true
  else
    let locations := (toVertices box).map fun vertex => orient.pointInRegion vertex border
    if withinOf box polygonBox && (locations.all fun location => decide (location = .interior))
        && (toEdges box).all fun edge => (contourSegments border).all fun borderEdge =>
          decide (segmentsRelation edge borderEdge = .disjoint) then
      !polygon.holes.any fun hole => withinOf box (contourBox hole) && withinOfRegion orient box hole
    else
      (locations.any fun location => decide (location ≠ .exterior))
        || (contourSegments border).any fun edge => intersectsWithSegment box edge

/-- core/bounding.py:275-290 `intersects_with_region` -/
def intersectsWithRegion (box : Box) (region : Contour) : Bool :=
  let regionBox := contourBox region
  intersectsWith regionBox box
    && (isSubsetOf regionBox box
        || (region.vertices.any fun vertex => containsPoint box vertex)
        || ((toVertices box).any fun vertex => decide (orient.pointInRegion vertex region ≠ .exterior))
        || (contourSegments region).any fun edge => intersectsWithSegment box edge)

/-- the last condition of `coupled_with_polygon` and `coupled_with_region` (core/bounding.py:316-321,
340-345) -/
def edgesCoupled (box : Box) (border : Contour) : Bool :=
  (toEdges box).any fun segment => decide (orient.segmentInContour segment border = .overlap)
    || [ShapeRelation.cross, .component, .enclosed].contains (orient.segmentInRegion segment border)

/-- core/bounding.py:293-321 `coupled_with_polygon` -/
def coupledWithPolygon (box : Box) (polygon : Polygon) : Bool :=
  let border := polygon.border
  let polygonBox := contourBox border
  if !coupledWith polygonBox box then false
  else if isSubsetOf polygonBox box || border.vertices.any fun vertex => coversPoint box vertex then true
  else
    let locations := (toVertices box).map fun vertex => orient.pointInRegion vertex border
    if locations.any fun location => decide (location = .interior) then
      (!locations.all fun location => decide (location = .interior))
        || !isSubsetOfMultiregion orient box polygon.holes
    else if isSubsetOf box polygonBox && isSubsetOfRegion orient box border then
      !isSubsetOfMultiregion orient box polygon.holes
    else edgesCoupled orient box border

/-- core/bounding.py:324-345 `coupled_with_region` -/
def coupledWithRegion (box : Box) (region : Contour) : Bool :=
  let regionBox := contourBox region
  if !coupledWith regionBox box then false
  else if isSubsetOf regionBox box || region.vertices.any fun vertex => coversPoint box vertex then true
  else
    ((toVertices box).any fun vertex => decide (orient.pointInRegion vertex region = .interior))
      || isSubsetOf box regionBox && isSubsetOfRegion orient box region
      || edgesCoupled orient box region

/-- core/bounding.py:403-408 `to_intersecting_polygons` -/
def toIntersectingPolygons (box : Box) (polygons : List Polygon) : List Polygon :=
  polygons.filter (intersectsWithPolygon orient box)

/-- core/bounding.py:411-416 `to_intersecting_regions` -/
def toIntersectingRegions (box : Box) (multiregion : List Contour) : List Contour :=
  multiregion.filter (intersectsWithRegion orient box)

/-- core/bounding.py:419-424 `to_coupled_polygons` -/
def toCoupledPolygons (box : Box) (polygons : List Polygon) : List Polygon :=
  polygons.filter (coupledWithPolygon orient box)

/-- core/bounding.py:427-432 `to_coupled_regions` -/
def toCoupledRegions (box : Box) (multiregion : List Contour) : List Contour :=
  multiregion.filter (coupledWithRegion orient box)

end Clipping
