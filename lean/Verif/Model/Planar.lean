import Verif.Model.Linear
import Verif.Model.Segments

/-!
# Model of the functions of clipping/planar.py for two linear operands which need a sweep

A multisegment is its list of segments.  `tb` is the unknown order of the priority queue.
-/

namespace Clipping

/-- planar.py:237-308 `complete_intersect_segment_with_multisegment` -/
def completeIntersectSegmentWithMultisegment (tb : TieBreak) (segment : Segment)
    (multisegment : List Segment) : Except Err Geometry :=
  linearCompleteIntersection tb (segmentOperand segment) (multisegmentOperand multisegment)

/-- planar.py:374-446 `subtract_multisegment_from_segment` -/
def subtractMultisegmentFromSegment (tb : TieBreak) (minuend : Segment) (subtrahend : List Segment) :
    Except Err Geometry :=
  linearDifference tb (segmentOperand minuend) (multisegmentOperand subtrahend)

/-- planar.py:515-583 `symmetric_subtract_multisegment_from_segment` -/
def symmetricSubtractMultisegmentFromSegment (tb : TieBreak) (segment : Segment)
    (multisegment : List Segment) : Except Err Geometry :=
  linearSymmetricDifference tb (segmentOperand segment) (multisegmentOperand multisegment)

/-- planar.py:1441-1494 `complete_intersect_multisegments` -/
def completeIntersectMultisegments (tb : TieBreak) (first second : List Segment) : Except Err Geometry :=
  linearCompleteIntersection tb (multisegmentOperand first) (multisegmentOperand second)

/-- planar.py:1497-1544 `intersect_multisegments` -/
def intersectMultisegments (tb : TieBreak) (first second : List Segment) : Except Err Geometry :=
  linearIntersection tb (multisegmentOperand first) (multisegmentOperand second)

/-- planar.py:1547-1593 `subtract_multisegments` -/
def subtractMultisegments (tb : TieBreak) (minuend subtrahend : List Segment) : Except Err Geometry :=
  linearDifference tb (multisegmentOperand minuend) (multisegmentOperand subtrahend)

/-- planar.py:1596-1647 `symmetric_subtract_multisegments` -/
def symmetricSubtractMultisegments (tb : TieBreak) (first second : List Segment) : Except Err Geometry :=
  linearSymmetricDifference tb (multisegmentOperand first) (multisegmentOperand second)

/-- planar.py:1650-1697 `unite_multisegments` -/
def uniteMultisegments (tb : TieBreak) (first second : List Segment) : Except Err Geometry :=
  linearUnion tb (multisegmentOperand first) (multisegmentOperand second)

end Clipping
