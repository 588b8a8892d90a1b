import Verif.Model.Unpacking

/-!
# Model of the sweep-free functions of /repo/clipping/core/linear.py

Segment/segment functions (lines 332-407, 501-593) and segment/multisegment functions
(lines 410-498).  A multisegment is modelled by its list of segments.
-/

namespace Clipping

/-- `sorted([a, b, c, d])` of four points, unpacked into four names
(core/linear.py:471,505,526,536,557,591): compare-exchange network of Python's stable sort result;
on a total order the sorted sequence is unique. -/
def sorted4 (a b c d : Point) : Point × Point × Point × Point :=
  let l1 := min a b
  let h1 := max a b
  let l2 := min c d
  let h2 := max c d
  (min l1 l2, min (max l1 l2) (min h1 h2), max (max l1 l2) (min h1 h2), max h1 h2)

/-- core/linear.py:588-593 `_intersect_segments_overlap` -/
def intersectSegmentsOverlap (first second : Segment) : Segment :=
  let (_, start, stop, _) := sorted4 first.start first.stop second.start second.stop
  ⟨start, stop⟩

/-- core/linear.py:523-530 `_subtract_segments_overlap` -/
def subtractSegmentsOverlap (minuend subtrahend : Segment) : Segment :=
  let (leftStart, leftEnd, rightStart, rightEnd) :=
    sorted4 minuend.start minuend.stop subtrahend.start subtrahend.stop
  if leftStart = minuend.start ∨ leftStart = minuend.stop then ⟨leftStart, leftEnd⟩
  else ⟨rightStart, rightEnd⟩

/-- core/linear.py:501-520 `_subtract_segments_composite` -/
def subtractSegmentsComposite (minuend subtrahend : Segment) : Geometry :=
  let (leftStart, leftEnd, rightStart, rightEnd) :=
    sorted4 minuend.start minuend.stop subtrahend.start subtrahend.stop
  if leftStart = subtrahend.start ∨ leftStart = subtrahend.stop then
    .segment ⟨rightStart, rightEnd⟩
  else if leftEnd = subtrahend.start ∨ leftEnd = subtrahend.stop then
    if rightStart = subtrahend.start ∨ rightStart = subtrahend.stop then
      if rightStart = rightEnd then .segment ⟨leftStart, leftEnd⟩
      else .multisegment [⟨leftStart, leftEnd⟩, ⟨rightStart, rightEnd⟩]
    else .segment ⟨leftStart, leftEnd⟩
  else .segment ⟨leftStart, rightStart⟩

/-- core/linear.py:533-540 `_symmetric_subtract_segments_overlap` -/
def symmetricSubtractSegmentsOverlap (minuend subtrahend : Segment) : Geometry :=
  let (leftStart, leftEnd, rightStart, rightEnd) :=
    sorted4 minuend.start minuend.stop subtrahend.start subtrahend.stop
  .multisegment [⟨leftStart, leftEnd⟩, ⟨rightStart, rightEnd⟩]

/-- core/linear.py:543-551 `_unite_segments_cross` -/
def uniteSegmentsCross (first second : Segment) : Geometry :=
  let crossPoint := segmentsIntersection first second
  .multisegment [⟨first.start, crossPoint⟩, ⟨second.start, crossPoint⟩,
    ⟨crossPoint, first.stop⟩, ⟨crossPoint, second.stop⟩]

/-- core/linear.py:554-559 `_unite_segments_overlap` -/
def uniteSegmentsOverlap (first second : Segment) : Geometry :=
  let (start, _, _, stop) := sorted4 first.start first.stop second.start second.stop
  .segment ⟨start, stop⟩

/-- core/linear.py:562-585 `_unite_segments_touch` -/
def uniteSegmentsTouch (first second : Segment) : Geometry :=
  if (first.start ≠ second.start
        ∨ orientation first.start first.stop second.stop ≠ .collinear)
      ∧ (first.start ≠ second.stop
        ∨ orientation first.start first.stop second.start ≠ .collinear)
      ∧ (first.stop ≠ second.start
        ∨ orientation first.stop first.start second.stop ≠ .collinear)
      ∧ (first.stop ≠ second.stop
        ∨ orientation first.stop first.start second.start ≠ .collinear)
  then .multisegment [first, second]
  else .segment ⟨min (min (min first.start first.stop) second.start) second.stop,
    max (max (max first.start first.stop) second.start) second.stop⟩

/-- core/linear.py:332-347 `intersect_segments`; planar.py:42-81 delegates to it -/
def intersectSegments (first second : Segment) : Geometry :=
  match segmentsRelation first second with
  | .disjoint => .empty
  | .touch | .cross => .multipoint [segmentsIntersection first second]
  | .equal | .component => .segment first
  | .composite => .segment second
  | .overlap => .segment (intersectSegmentsOverlap first second)

/-- core/linear.py:350-365 `subtract_segments`; planar.py:84-132 delegates to it -/
def subtractSegments (minuend subtrahend : Segment) : Geometry :=
  match segmentsRelation minuend subtrahend with
  | .component | .equal => .empty
  | .disjoint | .touch | .cross => .segment minuend
  | .overlap => .segment (subtractSegmentsOverlap minuend subtrahend)
  | .composite => subtractSegmentsComposite minuend subtrahend

/-- core/linear.py:368-389 `symmetric_subtract_segments`; planar.py:135-185 delegates to it -/
def symmetricSubtractSegments (first second : Segment) : Geometry :=
  match segmentsRelation first second with
  | .disjoint => .multisegment [first, second]
  | .equal => .empty
  | .touch => uniteSegmentsTouch first second
  | .cross => uniteSegmentsCross first second
  | .overlap => symmetricSubtractSegmentsOverlap first second
  | .composite => subtractSegmentsComposite first second
  | .component => subtractSegmentsComposite second first

/-- core/linear.py:392-407 `unite_segments`; planar.py:188-234 delegates to it -/
def uniteSegments (first second : Segment) : Geometry :=
  match segmentsRelation first second with
  | .disjoint => .multisegment [first, second]
  | .equal | .composite => .segment first
  | .component => .segment second
  | .touch => uniteSegmentsTouch first second
  | .cross => uniteSegmentsCross first second
  | .overlap => uniteSegmentsOverlap first second

/-- core/linear.py:440-457 `_intersect_segment_with_multisegment` -/
def intersectSegmentWithMultisegmentList (segment : Segment) : List Segment → List Segment
  | [] => []
  | sub :: rest =>
    let tail := intersectSegmentWithMultisegmentList segment rest
    match segmentsRelation segment sub with
    | .disjoint | .touch | .cross => tail
    | .equal | .component => segment :: tail
    | .composite => sub :: tail
    | .overlap => intersectSegmentsOverlap segment sub :: tail

/-- core/linear.py:471-486: the pieces of `sub` left when its sub-segment `segment` is removed -/
def subtractComponentPieces (sub segment : Segment) : List Segment :=
  let (leftStart, leftEnd, rightStart, rightEnd) :=
    sorted4 sub.start sub.stop segment.start segment.stop
  if leftStart = segment.start ∨ leftStart = segment.stop then [⟨rightStart, rightEnd⟩]
  else if leftEnd = segment.start ∨ leftEnd = segment.stop then
    if rightStart = segment.start ∨ rightStart = segment.stop then
      if rightStart = rightEnd then [⟨leftStart, leftEnd⟩]
      else [⟨leftStart, leftEnd⟩, ⟨rightStart, rightEnd⟩]
    else [⟨leftStart, leftEnd⟩]
  else [⟨leftStart, rightStart⟩]

/-- core/linear.py:460-498 `_subtract_segment_from_multisegment`; the `break`s of lines 469 and
488 end the recursion with the untouched remaining segments -/
def subtractSegmentFromMultisegmentList (segment : Segment) : List Segment → List Segment
  | [] => []
  | sub :: rest =>
    match segmentsRelation segment sub with
    | .equal => rest
    | .component => subtractComponentPieces sub segment ++ rest
    | .cross =>
      let crossPoint := segmentsIntersection sub segment
      ⟨sub.start, crossPoint⟩ :: ⟨crossPoint, sub.stop⟩
        :: subtractSegmentFromMultisegmentList segment rest
    | .overlap => subtractSegmentsOverlap sub segment
        :: subtractSegmentFromMultisegmentList segment rest
    | .composite => subtractSegmentFromMultisegmentList segment rest
    | .disjoint | .touch => sub :: subtractSegmentFromMultisegmentList segment rest

/-- core/linear.py:410-417; planar.py:311-371 `intersect_segment_with_multisegment` -/
def intersectSegmentWithMultisegment (segment : Segment) (multisegment : List Segment) : Geometry :=
  unpackSegments (intersectSegmentWithMultisegmentList segment multisegment)

/-- core/linear.py:420-427; planar.py:449-512 `subtract_segment_from_multisegment` -/
def subtractSegmentFromMultisegment (multisegment : List Segment) (segment : Segment) : Geometry :=
  unpackSegments (subtractSegmentFromMultisegmentList segment multisegment)

/-- core/linear.py:430-437; planar.py:586-647 `unite_segment_with_multisegment` -/
def uniteSegmentWithMultisegment (segment : Segment) (multisegment : List Segment) : Geometry :=
  unpackSegments (subtractSegmentFromMultisegmentList segment multisegment ++ [segment])

end Clipping
