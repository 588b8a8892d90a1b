import Verif.Model.Holey

/-!
# Model of the functions of clipping/planar.py for regions, polygons and multipolygons

A multiregion is its list of regions, a multipolygon is its list of polygons.  `orient` are the functions of the
library of this name, `tb` is the unknown order of the priority queue.
-/

namespace Clipping

variable (orient : Orient) (tb : TieBreak)

/-- planar.py:2446-2506 `complete_intersect_regions` -/
def completeIntersectRegions (first : Contour) (second : Contour) : Except Err Geometry :=
  holelessCompleteIntersection orient tb [first] [second]

/-- planar.py:2509-2558 `intersect_regions` -/
def intersectRegions (first : Contour) (second : Contour) : Except Err Geometry :=
  holelessIntersection orient tb [first] [second]

/-- planar.py:2561-2641 `complete_intersect_region_with_multiregion` -/
def completeIntersectRegionWithMultiregion (region : Contour) (multiregion : List Contour) : Except Err Geometry :=
  holelessCompleteIntersection orient tb [region] multiregion

/-- planar.py:2644-2707 `intersect_region_with_multiregion` -/
def intersectRegionWithMultiregion (region : Contour) (multiregion : List Contour) : Except Err Geometry :=
  holelessIntersection orient tb [region] multiregion

/-- planar.py:2710-2818 `complete_intersect_multiregions` -/
def completeIntersectMultiregions (first : List Contour) (second : List Contour) : Except Err Geometry :=
  holelessCompleteIntersection orient tb first second

/-- planar.py:2821-2905 `intersect_multiregions` -/
def intersectMultiregions (first : List Contour) (second : List Contour) : Except Err Geometry :=
  holelessIntersection orient tb first second

/-- planar.py:2908-2994 `complete_intersect_polygons` -/
def completeIntersectPolygons (first : Polygon) (second : Polygon) : Except Err Geometry :=
  holeyCompleteIntersection orient tb (polygonOperand first) (polygonOperand second)

/-- planar.py:2997-3060 `intersect_polygons` -/
def intersectPolygons (first : Polygon) (second : Polygon) : Except Err Geometry :=
  holeyIntersection orient tb (polygonOperand first) (polygonOperand second)

/-- planar.py:3063-3132 `subtract_polygons` -/
def subtractPolygons (minuend : Polygon) (subtrahend : Polygon) : Except Err Geometry :=
  holeyDifference orient tb (polygonOperand minuend) (polygonOperand subtrahend)

/-- planar.py:3135-3217 `symmetric_subtract_polygons` -/
def symmetricSubtractPolygons (first : Polygon) (second : Polygon) : Except Err Geometry :=
  holeySymmetricDifference tb (polygonOperand first) (polygonOperand second)

/-- planar.py:3220-3305 `unite_polygons` -/
def unitePolygons (first : Polygon) (second : Polygon) : Except Err Geometry :=
  holeyUnion tb (polygonOperand first) (polygonOperand second)

/-- planar.py:3308-3451 `complete_intersect_polygon_with_multipolygon` -/
def completeIntersectPolygonWithMultipolygon (polygon : Polygon) (multipolygon : List Polygon) : Except Err Geometry :=
  holeyCompleteIntersection orient tb (polygonOperand polygon) (multipolygonOperand multipolygon)

/-- planar.py:3454-3573 `intersect_polygon_with_multipolygon` -/
def intersectPolygonWithMultipolygon (polygon : Polygon) (multipolygon : List Polygon) : Except Err Geometry :=
  holeyIntersection orient tb (polygonOperand polygon) (multipolygonOperand multipolygon)

/-- planar.py:3576-3706 `subtract_multipolygon_from_polygon` -/
def subtractMultipolygonFromPolygon (minuend : Polygon) (subtrahend : List Polygon) : Except Err Geometry :=
  holeyDifference orient tb (polygonOperand minuend) (multipolygonOperand subtrahend)

/-- planar.py:3709-3824 `subtract_polygon_from_multipolygon` -/
def subtractPolygonFromMultipolygon (minuend : List Polygon) (subtrahend : Polygon) : Except Err Geometry :=
  holeyDifference orient tb (multipolygonOperand minuend) (polygonOperand subtrahend)

/-- planar.py:3827-3977 `symmetric_subtract_multipolygon_from_polygon` -/
def symmetricSubtractMultipolygonFromPolygon (polygon : Polygon) (multipolygon : List Polygon) : Except Err Geometry :=
  holeySymmetricDifference tb (polygonOperand polygon) (multipolygonOperand multipolygon)

/-- planar.py:3980-4093 `unite_polygon_with_multipolygon` -/
def unitePolygonWithMultipolygon (polygon : Polygon) (multipolygon : List Polygon) : Except Err Geometry :=
  holeyUnion tb (polygonOperand polygon) (multipolygonOperand multipolygon)

/-- planar.py:4096-4295 `complete_intersect_multipolygons` -/
def completeIntersectMultipolygons (first : List Polygon) (second : List Polygon) : Except Err Geometry :=
  holeyCompleteIntersection orient tb (multipolygonOperand first) (multipolygonOperand second)

/-- planar.py:4298-4433 `intersect_multipolygons` -/
def intersectMultipolygons (first : List Polygon) (second : List Polygon) : Except Err Geometry :=
  holeyIntersection orient tb (multipolygonOperand first) (multipolygonOperand second)

/-- planar.py:4436-4577 `subtract_multipolygons` -/
def subtractMultipolygons (minuend : List Polygon) (subtrahend : List Polygon) : Except Err Geometry :=
  holeyDifference orient tb (multipolygonOperand minuend) (multipolygonOperand subtrahend)

/-- planar.py:4580-4733 `symmetric_subtract_multipolygons` -/
def symmetricSubtractMultipolygons (first : List Polygon) (second : List Polygon) : Except Err Geometry :=
  holeySymmetricDifference tb (multipolygonOperand first) (multipolygonOperand second)

/-- planar.py:4736-4875 `unite_multipolygons` -/
def uniteMultipolygons (first : List Polygon) (second : List Polygon) : Except Err Geometry :=
  holeyUnion tb (multipolygonOperand first) (multipolygonOperand second)

end Clipping
