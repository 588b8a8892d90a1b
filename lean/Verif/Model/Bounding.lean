import Verif.Ground.Basic

/-! # Model of /repo/clipping/core/bounding.py (boxes and segments) -/

namespace Clipping

/-- core/bounding.py:21-38 `disjoint_with` -/
def disjointWith (left right : Box) : Bool :=
  decide (right.maxX < left.minX) || decide (left.maxX < right.minX)
    || decide (right.maxY < left.minY) || decide (left.maxY < right.minY)

/-- core/bounding.py:42-60 `intersects_with` -/
def intersectsWith (left right : Box) : Bool :=
  decide (right.minX ≤ left.maxX) && decide (left.minX ≤ right.maxX)
    && decide (right.minY ≤ left.maxY) && decide (left.minY ≤ right.maxY)

/-- core/bounding.py:87-108 `touches_with` -/
def touchesWith (left right : Box) : Bool :=
  (decide (left.minX = right.maxX) || decide (left.maxX = right.minX))
      && (decide (left.minY ≤ right.maxY) && decide (right.minY ≤ left.maxY))
    || (decide (left.minX ≤ right.maxX) && decide (right.minX ≤ left.maxX))
      && (decide (left.minY = right.maxY) || decide (right.minY = left.maxY))

/-- core/bounding.py:111-132 `edges_overlap_with` -/
def edgesOverlapWith (left right : Box) : Bool :=
  (decide (left.minX = right.maxX) || decide (left.maxX = right.minX))
      && (decide (left.minY < right.maxY) && decide (right.minY < left.maxY))
    || (decide (left.minX < right.maxX) && decide (right.minX < left.maxX))
      && (decide (left.minY = right.maxY) || decide (right.minY = left.maxY))

/-- core/bounding.py:64-84 `coupled_with` -/
def coupledWith (left right : Box) : Bool :=
  intersectsWith left right && (!touchesWith left right || edgesOverlapWith left right)

/-- core/bounding.py:135-154 `is_subset_of` -/
def isSubsetOf (test goal : Box) : Bool :=
  decide (goal.minX ≤ test.minX) && decide (test.maxX ≤ goal.maxX)
    && decide (goal.minY ≤ test.minY) && decide (test.maxY ≤ goal.maxY)

/-- core/bounding.py:157-176 `within_of` -/
def withinOf (test goal : Box) : Bool :=
  decide (goal.minX < test.minX) && decide (test.maxX < goal.maxX)
    && decide (goal.minY < test.minY) && decide (test.maxY < goal.maxY)

/-- core/bounding.py:367-371 `to_vertices` -/
def toVertices (box : Box) : List Point :=
  [⟨box.minX, box.minY⟩, ⟨box.maxX, box.minY⟩, ⟨box.maxX, box.maxY⟩, ⟨box.minX, box.maxY⟩]

/-- core/bounding.py:374-384 `to_edges`; edges of a box without interior may have zero length -/
def toEdges (box : Box) : List Segment :=
  [⟨⟨box.minX, box.minY⟩, ⟨box.maxX, box.minY⟩⟩, ⟨⟨box.maxX, box.minY⟩, ⟨box.maxX, box.maxY⟩⟩,
    ⟨⟨box.minX, box.maxY⟩, ⟨box.maxX, box.maxY⟩⟩, ⟨⟨box.minX, box.minY⟩, ⟨box.minX, box.maxY⟩⟩]

/-- core/bounding.py:179-190 `intersects_with_segment` -/
def intersectsWithSegment (box : Box) (segment : Segment) : Bool :=
  let sb := segmentBox segment
  intersectsWith sb box
    && (isSubsetOf sb box
        || (toEdges box).any fun edge => decide (segmentsRelation edge segment ≠ .disjoint))

/-- core/bounding.py:193-204 `coupled_with_segment` -/
def coupledWithSegment (box : Box) (segment : Segment) : Bool :=
  let sb := segmentBox segment
  coupledWith sb box
    && (isSubsetOf sb box
        || (toEdges box).any fun edge =>
            decide (segmentsRelation edge segment ≠ .touch ∧ segmentsRelation edge segment ≠ .disjoint))

/-- core/bounding.py:348-350 `contains_point` -/
def containsPoint (box : Box) (point : Point) : Bool :=
  decide (box.minX ≤ point.x) && decide (point.x ≤ box.maxX)
    && decide (box.minY ≤ point.y) && decide (point.y ≤ box.maxY)

/-- core/bounding.py:353-354 `covers_point` -/
def coversPoint (box : Box) (point : Point) : Bool :=
  decide (box.minX < point.x) && decide (point.x < box.maxX)
    && decide (box.minY < point.y) && decide (point.y < box.maxY)

/-- core/bounding.py:357-364 `split_intersecting_segments`: (not intersecting, intersecting) -/
def splitIntersectingSegments (box : Box) (segments : List Segment) : List Segment × List Segment :=
  (segments.filter fun s => !intersectsWithSegment box s,
   segments.filter fun s => intersectsWithSegment box s)

/-- core/bounding.py:387-392 `to_intersecting_segments` -/
def toIntersectingSegments (box : Box) (segments : List Segment) : List Segment :=
  segments.filter (intersectsWithSegment box)

/-- core/bounding.py:395-400 `to_coupled_segments` -/
def toCoupledSegments (box : Box) (segments : List Segment) : List Segment :=
  segments.filter (coupledWithSegment box)

end Clipping
