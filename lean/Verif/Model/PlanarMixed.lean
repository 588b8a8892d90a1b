import Verif.Model.Mixed

/-!
# Model of the functions of clipping/planar.py for a linear and a shaped operand

A multisegment is its list of segments, a multipolygon is its list of polygons.  `orient` are the functions of the
library of this name, `tb` is the unknown order of the priority queue.
-/

namespace Clipping

variable (orient : Orient)

/-- planar.py:650-722 `complete_intersect_segment_with_polygon` -/
def completeIntersectSegmentWithPolygon (tb : TieBreak) (segment : Segment) (polygon : Polygon) :
    Except Err Geometry :=
  mixedCompleteIntersection orient tb (segmentOperand segment) (polygonOperand polygon)

/-- planar.py:725-790 `intersect_segment_with_polygon` -/
def intersectSegmentWithPolygon (tb : TieBreak) (segment : Segment) (polygon : Polygon) :
    Except Err Geometry :=
  mixedIntersection orient tb (segmentOperand segment) (polygonOperand polygon)

/-- planar.py:793-861 `subtract_polygon_from_segment` -/
def subtractPolygonFromSegment (tb : TieBreak) (minuend : Segment) (subtrahend : Polygon) :
    Except Err Geometry :=
  mixedDifference orient tb (segmentOperand minuend) (polygonOperand subtrahend)

/-- planar.py:864-925 `symmetric_subtract_polygon_from_segment` -/
def symmetricSubtractPolygonFromSegment (tb : TieBreak) (segment : Segment) (polygon : Polygon) :
    Except Err Geometry :=
  mixedUnion orient tb (segmentOperand segment) (polygonOperand polygon)

/-- planar.py:928-987 `unite_segment_with_polygon` -/
def uniteSegmentWithPolygon (tb : TieBreak) (segment : Segment) (polygon : Polygon) :
    Except Err Geometry :=
  mixedUnion orient tb (segmentOperand segment) (polygonOperand polygon)

/-- planar.py:990-1079 `complete_intersect_segment_with_multipolygon` -/
def completeIntersectSegmentWithMultipolygon (tb : TieBreak) (segment : Segment) (multipolygon : List Polygon) :
    Except Err Geometry :=
  mixedCompleteIntersection orient tb (segmentOperand segment) (multipolygonOperand multipolygon)

/-- planar.py:1082-1164 `intersect_segment_with_multipolygon` -/
def intersectSegmentWithMultipolygon (tb : TieBreak) (segment : Segment) (multipolygon : List Polygon) :
    Except Err Geometry :=
  mixedIntersection orient tb (segmentOperand segment) (multipolygonOperand multipolygon)

/-- planar.py:1167-1237 `subtract_multipolygon_from_segment` -/
def subtractMultipolygonFromSegment (tb : TieBreak) (minuend : Segment) (subtrahend : List Polygon) :
    Except Err Geometry :=
  mixedDifference orient tb (segmentOperand minuend) (multipolygonOperand subtrahend)

/-- planar.py:1240-1317 `symmetric_subtract_multipolygon_from_segment` -/
def symmetricSubtractMultipolygonFromSegment (tb : TieBreak) (segment : Segment) (multipolygon : List Polygon) :
    Except Err Geometry :=
  mixedUnion orient tb (segmentOperand segment) (multipolygonOperand multipolygon)

/-- planar.py:1320-1396 `unite_segment_with_multipolygon` -/
def uniteSegmentWithMultipolygon (tb : TieBreak) (segment : Segment) (multipolygon : List Polygon) :
    Except Err Geometry :=
  mixedUnion orient tb (segmentOperand segment) (multipolygonOperand multipolygon)

/-- planar.py:1700-1758 `complete_intersect_multisegment_with_polygon` -/
def completeIntersectMultisegmentWithPolygon (tb : TieBreak) (multisegment : List Segment) (polygon : Polygon) :
    Except Err Geometry :=
  mixedCompleteIntersection orient tb (multisegmentOperand multisegment) (polygonOperand polygon)

/-- planar.py:1761-1813 `intersect_multisegment_with_polygon` -/
def intersectMultisegmentWithPolygon (tb : TieBreak) (multisegment : List Segment) (polygon : Polygon) :
    Except Err Geometry :=
  mixedIntersection orient tb (multisegmentOperand multisegment) (polygonOperand polygon)

/-- planar.py:1816-1870 `subtract_polygon_from_multisegment` -/
def subtractPolygonFromMultisegment (tb : TieBreak) (minuend : List Segment) (subtrahend : Polygon) :
    Except Err Geometry :=
  mixedDifference orient tb (multisegmentOperand minuend) (polygonOperand subtrahend)

/-- planar.py:1873-1940 `symmetric_subtract_polygon_from_multisegment` -/
def symmetricSubtractPolygonFromMultisegment (tb : TieBreak) (multisegment : List Segment) (polygon : Polygon) :
    Except Err Geometry :=
  mixedUnion orient tb (multisegmentOperand multisegment) (polygonOperand polygon)

/-- planar.py:1943-2009 `unite_multisegment_with_polygon` -/
def uniteMultisegmentWithPolygon (tb : TieBreak) (multisegment : List Segment) (polygon : Polygon) :
    Except Err Geometry :=
  mixedUnion orient tb (multisegmentOperand multisegment) (polygonOperand polygon)

/-- planar.py:2012-2114 `complete_intersect_multisegment_with_multipolygon` -/
def completeIntersectMultisegmentWithMultipolygon (tb : TieBreak) (multisegment : List Segment) (multipolygon : List Polygon) :
    Except Err Geometry :=
  mixedCompleteIntersection orient tb (multisegmentOperand multisegment) (multipolygonOperand multipolygon)

/-- planar.py:2117-2200 `intersect_multisegment_with_multipolygon` -/
def intersectMultisegmentWithMultipolygon (tb : TieBreak) (multisegment : List Segment) (multipolygon : List Polygon) :
    Except Err Geometry :=
  mixedIntersection orient tb (multisegmentOperand multisegment) (multipolygonOperand multipolygon)

/-- planar.py:2203-2277 `subtract_multipolygon_from_multisegment` -/
def subtractMultipolygonFromMultisegment (tb : TieBreak) (minuend : List Segment) (subtrahend : List Polygon) :
    Except Err Geometry :=
  mixedDifference orient tb (multisegmentOperand minuend) (multipolygonOperand subtrahend)

/-- planar.py:2280-2360 `symmetric_subtract_multipolygon_from_multisegment` -/
def symmetricSubtractMultipolygonFromMultisegment (tb : TieBreak) (multisegment : List Segment) (multipolygon : List Polygon) :
    Except Err Geometry :=
  mixedUnion orient tb (multisegmentOperand multisegment) (multipolygonOperand multipolygon)

/-- planar.py:2363-2443 `unite_multisegment_with_multipolygon` -/
def uniteMultisegmentWithMultipolygon (tb : TieBreak) (multisegment : List Segment) (multipolygon : List Polygon) :
    Except Err Geometry :=
  mixedUnion orient tb (multisegmentOperand multisegment) (multipolygonOperand multipolygon)

end Clipping
