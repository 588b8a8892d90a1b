import Verif.Model.PlanarMixed
import Verif.Lemmas.Mixed.Result
import Verif.Properties.BoundingShaped
import Verif.Properties.Linear

/-!
# C32, C37–C39: operations on a linear and a shaped operand

`a` is a segment or a list of segments, `b` is a polygon or a list of polygons, `o` are the functions of the library
`orient`, of which is assumed what they are documented to do (`OrientOk`), `tb` is how the priority queue orders events
of which neither precedes the other.  Nothing is assumed of a multisegment but that it has a segment and that no two of its
segments overlap.  Polygons are valid: contours are simple, holes are in the border and do not have common interior
points with each other, neither do polygons.
-/

namespace Clipping

theorem polysPts_singleton (p : Polygon) : polysPts [p] = p.pts := by
  unfold polysPts; simp

theorem polygonOperand_ok {p : Polygon} (h : ValidPolygon p) : ShapedOk (polygonOperand p) where
  ne := by simp [polygonOperand]
  valid := ⟨by simpa [polygonOperand] using h, by simpa [polygonOperand] using h.noOverlap, by simp [polygonOperand]⟩
  pts := (polysPts_singleton p).symm

theorem multipolygonOperand_ok {ps : List Polygon} (hp : ps ≠ []) (h : ValidPolygons ps) :
    ShapedOk (multipolygonOperand ps) := ⟨hp, h, rfl⟩

theorem unpackLinearMix_ok {ps : List Point} {l : List Segment} (hps : ps.Nodup) (hv : ValidSegments l) :
    (unpackLinearMix (unpackPoints ps) (unpackSegments l)).LinearOk := by
  match ps, l with
  | [], [] => exact unpackSegments_ok hv
  | [], [_] => exact unpackSegments_ok hv
  | [], _ :: _ :: _ => exact unpackSegments_ok hv
  | p :: ps, [] => exact ⟨by simp, hps⟩
  | p :: ps, [t] => exact ⟨⟨_, rfl, by simp, hps⟩, Or.inl ⟨_, rfl, hv.1 t (by simp)⟩, rfl⟩
  | p :: ps, t :: u :: r => exact ⟨⟨_, rfl, by simp, hps⟩, Or.inr ⟨_, rfl, by simp, hv⟩, rfl⟩

theorem pairwise_lt {ps : List Point} (h : ps.Nodup) (h' : ps.Pairwise (· ≤ ·)) : ps.Pairwise (· < ·) :=
  (h.and h').imp fun g => lt_of_le_of_ne g.2 g.1

theorem mixedUnion_pts {A B : Set Point} {g v : Geometry} (h : IsDifference A B g.pts) (hv : v.pts = B := by rfl) :
    (if g.isEmpty then v else .mix .empty g v).pts = A ∪ B := by
  have key : g.pts ∪ B = A ∪ B := by
    ext q
    constructor
    · rintro (hq | hq)
      · exact Or.inl (h.within hq)
      · exact Or.inr hq
    · rintro (hq | hq)
      · by_cases hb : q ∈ B
        · exact Or.inr hb
        · exact Or.inl (h.covers ⟨hq, hb⟩)
      · exact Or.inr hq
  rw [← key]
  cases g with
  | empty => simp [Geometry.isEmpty, Geometry.pts, hv]
  | _ => simp [Geometry.isEmpty, Geometry.pts, hv]

variable {o : Orient} (ok : OrientOk o) (tb : TieBreak)
include ok

/-! ## Intersection -/

/-- **C32** `intersect_segment_with_polygon`: everything common, up to isolated points. -/
theorem intersectSegmentWithPolygon_intersection {a : Segment} {b : Polygon} (hs : a.Proper) (hp : ValidPolygon b) :
    ∃ g, intersectSegmentWithPolygon o tb a b = .ok g ∧ g.IsSegments ∧ g.LinearOk ∧ IsIntersection a.pts b.pts g.pts := by
  obtain ⟨r, h, h1, h2⟩ := mixedIntersection_result ok tb (segmentOperand_ok hs) (polygonOperand_ok hp)
  refine ⟨_, h, unpackSegments_isSegments _, unpackSegments_ok h2, ?_⟩
  rw [unpackSegments_pts]
  simpa only [segmentOperand, segsPts_singleton, polygonOperand, polysPts_singleton] using h1

/-- **C32** `intersect_segment_with_multipolygon`: everything common, up to isolated points. -/
theorem intersectSegmentWithMultipolygon_intersection {a : Segment} {b : List Polygon} (hs : a.Proper) (hb : b ≠ []) (vb : ValidPolygons b) :
    ∃ g, intersectSegmentWithMultipolygon o tb a b = .ok g ∧ g.IsSegments ∧ g.LinearOk ∧ IsIntersection a.pts (polysPts b) g.pts := by
  obtain ⟨r, h, h1, h2⟩ := mixedIntersection_result ok tb (segmentOperand_ok hs) (multipolygonOperand_ok hb vb)
  refine ⟨_, h, unpackSegments_isSegments _, unpackSegments_ok h2, ?_⟩
  rw [unpackSegments_pts]
  simpa only [segmentOperand, segsPts_singleton, multipolygonOperand] using h1

/-- **C32** `intersect_multisegment_with_polygon`: everything common, up to isolated points. -/
theorem intersectMultisegmentWithPolygon_intersection {a : List Segment} {b : Polygon} (ha : a ≠ []) (na : NoOverlap a) (hp : ValidPolygon b) :
    ∃ g, intersectMultisegmentWithPolygon o tb a b = .ok g ∧ g.IsSegments ∧ g.LinearOk ∧ IsIntersection (segsPts a) b.pts g.pts := by
  obtain ⟨r, h, h1, h2⟩ := mixedIntersection_result ok tb (multisegmentOperand_ok ha na) (polygonOperand_ok hp)
  refine ⟨_, h, unpackSegments_isSegments _, unpackSegments_ok h2, ?_⟩
  rw [unpackSegments_pts]
  simpa only [multisegmentOperand, polygonOperand, polysPts_singleton] using h1

/-- **C32** `intersect_multisegment_with_multipolygon`: everything common, up to isolated points. -/
theorem intersectMultisegmentWithMultipolygon_intersection {a : List Segment} {b : List Polygon} (ha : a ≠ []) (na : NoOverlap a) (hb : b ≠ []) (vb : ValidPolygons b) :
    ∃ g, intersectMultisegmentWithMultipolygon o tb a b = .ok g ∧ g.IsSegments ∧ g.LinearOk ∧ IsIntersection (segsPts a) (polysPts b) g.pts := by
  obtain ⟨r, h, h1, h2⟩ := mixedIntersection_result ok tb (multisegmentOperand_ok ha na) (multipolygonOperand_ok hb vb)
  refine ⟨_, h, unpackSegments_isSegments _, unpackSegments_ok h2, ?_⟩
  rw [unpackSegments_pts]
  simpa only [multisegmentOperand, multipolygonOperand] using h1

/-! ## Complete intersection -/

/-- **C37** `complete_intersect_segment_with_polygon`: exactly the common points; the isolated ones are not on the segments. -/
theorem completeIntersectSegmentWithPolygon_intersection {a : Segment} {b : Polygon} (hs : a.Proper) (hp : ValidPolygon b) :
    ∃ ps r, completeIntersectSegmentWithPolygon o tb a b = .ok (unpackLinearMix (unpackPoints ps) (unpackSegments r)) ∧
      (unpackLinearMix (unpackPoints ps) (unpackSegments r)).pts = a.pts ∩ b.pts ∧
      (unpackLinearMix (unpackPoints ps) (unpackSegments r)).LinearOk ∧ (∀ q ∈ ps, q ∉ segsPts r) ∧ ps.Pairwise (· < ·) := by
  obtain ⟨ps, r, h, h1, h2, h3, h4, h5⟩ := mixedCompleteIntersection_result ok tb (segmentOperand_ok hs) (polygonOperand_ok hp)
  refine ⟨ps, r, h, ?_, unpackLinearMix_ok h2 h5, h4, pairwise_lt h2 h3⟩
  simp only [segmentOperand, segsPts_singleton, polygonOperand, polysPts_singleton] at h1
  rw [unpackLinearMix_pts]
  ext q
  exact h1 q

/-- **C37** `complete_intersect_segment_with_multipolygon`: exactly the common points; the isolated ones are not on the segments. -/
theorem completeIntersectSegmentWithMultipolygon_intersection {a : Segment} {b : List Polygon} (hs : a.Proper) (hb : b ≠ []) (vb : ValidPolygons b) :
    ∃ ps r, completeIntersectSegmentWithMultipolygon o tb a b = .ok (unpackLinearMix (unpackPoints ps) (unpackSegments r)) ∧
      (unpackLinearMix (unpackPoints ps) (unpackSegments r)).pts = a.pts ∩ (polysPts b) ∧
      (unpackLinearMix (unpackPoints ps) (unpackSegments r)).LinearOk ∧ (∀ q ∈ ps, q ∉ segsPts r) ∧ ps.Pairwise (· < ·) := by
  obtain ⟨ps, r, h, h1, h2, h3, h4, h5⟩ := mixedCompleteIntersection_result ok tb (segmentOperand_ok hs) (multipolygonOperand_ok hb vb)
  refine ⟨ps, r, h, ?_, unpackLinearMix_ok h2 h5, h4, pairwise_lt h2 h3⟩
  simp only [segmentOperand, segsPts_singleton, multipolygonOperand] at h1
  rw [unpackLinearMix_pts]
  ext q
  exact h1 q

/-- **C37** `complete_intersect_multisegment_with_polygon`: exactly the common points; the isolated ones are not on the segments. -/
theorem completeIntersectMultisegmentWithPolygon_intersection {a : List Segment} {b : Polygon} (ha : a ≠ []) (na : NoOverlap a) (hp : ValidPolygon b) :
    ∃ ps r, completeIntersectMultisegmentWithPolygon o tb a b = .ok (unpackLinearMix (unpackPoints ps) (unpackSegments r)) ∧
      (unpackLinearMix (unpackPoints ps) (unpackSegments r)).pts = (segsPts a) ∩ b.pts ∧
      (unpackLinearMix (unpackPoints ps) (unpackSegments r)).LinearOk ∧ (∀ q ∈ ps, q ∉ segsPts r) ∧ ps.Pairwise (· < ·) := by
  obtain ⟨ps, r, h, h1, h2, h3, h4, h5⟩ := mixedCompleteIntersection_result ok tb (multisegmentOperand_ok ha na) (polygonOperand_ok hp)
  refine ⟨ps, r, h, ?_, unpackLinearMix_ok h2 h5, h4, pairwise_lt h2 h3⟩
  simp only [multisegmentOperand, polygonOperand, polysPts_singleton] at h1
  rw [unpackLinearMix_pts]
  ext q
  exact h1 q

/-- **C37** `complete_intersect_multisegment_with_multipolygon`: exactly the common points; the isolated ones are not on the segments. -/
theorem completeIntersectMultisegmentWithMultipolygon_intersection {a : List Segment} {b : List Polygon} (ha : a ≠ []) (na : NoOverlap a) (hb : b ≠ []) (vb : ValidPolygons b) :
    ∃ ps r, completeIntersectMultisegmentWithMultipolygon o tb a b = .ok (unpackLinearMix (unpackPoints ps) (unpackSegments r)) ∧
      (unpackLinearMix (unpackPoints ps) (unpackSegments r)).pts = (segsPts a) ∩ (polysPts b) ∧
      (unpackLinearMix (unpackPoints ps) (unpackSegments r)).LinearOk ∧ (∀ q ∈ ps, q ∉ segsPts r) ∧ ps.Pairwise (· < ·) := by
  obtain ⟨ps, r, h, h1, h2, h3, h4, h5⟩ := mixedCompleteIntersection_result ok tb (multisegmentOperand_ok ha na) (multipolygonOperand_ok hb vb)
  refine ⟨ps, r, h, ?_, unpackLinearMix_ok h2 h5, h4, pairwise_lt h2 h3⟩
  simp only [multisegmentOperand, multipolygonOperand] at h1
  rw [unpackLinearMix_pts]
  ext q
  exact h1 q

/-! ## Difference -/

/-- **C38, proved part** `subtract_polygon_from_segment`: nothing is lost, nothing is added, and when the linear operand
has finitely many points on the holes, finitely many points of the polygons are left. -/
theorem subtractPolygonFromSegment_difference_partial {a : Segment} {b : Polygon} (hs : a.Proper) (hp : ValidPolygon b) :
    ∃ g, subtractPolygonFromSegment o tb a b = .ok g ∧ g.IsSegments ∧ a.pts \ b.pts ⊆ g.pts ∧ g.pts ⊆ a.pts ∧
      ((∀ c ∈ b.holes, (a.pts ∩ segsPts c.edges).Finite) →
        IsDifference a.pts b.pts g.pts) := by
  obtain ⟨g, h, h1, h2, h3, h4⟩ := mixedDifference_result ok tb (segmentOperand_ok hs) (polygonOperand_ok hp)
  simp only [segmentOperand, segsPts_singleton, polygonOperand, polysPts_singleton] at h1 h2 h3
  refine ⟨g, h, ?_, h1, h2, fun c => ⟨h1, h2, h3 (by simpa using c)⟩⟩
  rcases h4 with rfl | ⟨l, rfl, -⟩
  · trivial
  · exact unpackSegments_isSegments _

/-- **C38, proved part** `subtract_multipolygon_from_segment`: nothing is lost, nothing is added, and when the linear operand
has finitely many points on the holes, finitely many points of the polygons are left. -/
theorem subtractMultipolygonFromSegment_difference_partial {a : Segment} {b : List Polygon} (hs : a.Proper) (hb : b ≠ []) (vb : ValidPolygons b) :
    ∃ g, subtractMultipolygonFromSegment o tb a b = .ok g ∧ g.IsSegments ∧ a.pts \ (polysPts b) ⊆ g.pts ∧ g.pts ⊆ a.pts ∧
      ((∀ p ∈ b, ∀ c ∈ p.holes, (a.pts ∩ segsPts c.edges).Finite) →
        IsDifference a.pts (polysPts b) g.pts) := by
  obtain ⟨g, h, h1, h2, h3, h4⟩ := mixedDifference_result ok tb (segmentOperand_ok hs) (multipolygonOperand_ok hb vb)
  simp only [segmentOperand, segsPts_singleton, multipolygonOperand] at h1 h2 h3
  refine ⟨g, h, ?_, h1, h2, fun c => ⟨h1, h2, h3 c⟩⟩
  rcases h4 with rfl | ⟨l, rfl, -⟩
  · trivial
  · exact unpackSegments_isSegments _

/-- **C38, proved part** `subtract_polygon_from_multisegment`: nothing is lost, nothing is added, and when the linear operand
has finitely many points on the holes, finitely many points of the polygons are left. -/
theorem subtractPolygonFromMultisegment_difference_partial {a : List Segment} {b : Polygon} (ha : a ≠ []) (na : NoOverlap a) (hp : ValidPolygon b) :
    ∃ g, subtractPolygonFromMultisegment o tb a b = .ok g ∧ g.IsSegments ∧ (segsPts a) \ b.pts ⊆ g.pts ∧ g.pts ⊆ (segsPts a) ∧
      ((∀ c ∈ b.holes, ((segsPts a) ∩ segsPts c.edges).Finite) →
        IsDifference (segsPts a) b.pts g.pts) := by
  obtain ⟨g, h, h1, h2, h3, h4⟩ := mixedDifference_result ok tb (multisegmentOperand_ok ha na) (polygonOperand_ok hp)
  simp only [multisegmentOperand, polygonOperand, polysPts_singleton] at h1 h2 h3
  refine ⟨g, h, ?_, h1, h2, fun c => ⟨h1, h2, h3 (by simpa using c)⟩⟩
  rcases h4 with rfl | ⟨l, rfl, -⟩
  · trivial
  · exact unpackSegments_isSegments _

/-- **C38, proved part** `subtract_multipolygon_from_multisegment`: nothing is lost, nothing is added, and when the linear operand
has finitely many points on the holes, finitely many points of the polygons are left. -/
theorem subtractMultipolygonFromMultisegment_difference_partial {a : List Segment} {b : List Polygon} (ha : a ≠ []) (na : NoOverlap a) (hb : b ≠ []) (vb : ValidPolygons b) :
    ∃ g, subtractMultipolygonFromMultisegment o tb a b = .ok g ∧ g.IsSegments ∧ (segsPts a) \ (polysPts b) ⊆ g.pts ∧ g.pts ⊆ (segsPts a) ∧
      ((∀ p ∈ b, ∀ c ∈ p.holes, ((segsPts a) ∩ segsPts c.edges).Finite) →
        IsDifference (segsPts a) (polysPts b) g.pts) := by
  obtain ⟨g, h, h1, h2, h3, h4⟩ := mixedDifference_result ok tb (multisegmentOperand_ok ha na) (multipolygonOperand_ok hb vb)
  simp only [multisegmentOperand, multipolygonOperand] at h1 h2 h3
  refine ⟨g, h, ?_, h1, h2, fun c => ⟨h1, h2, h3 c⟩⟩
  rcases h4 with rfl | ⟨l, rfl, -⟩
  · trivial
  · exact unpackSegments_isSegments _

/-! ## Union -/

/-- **C39** `unite_segment_with_polygon`: the points of both operands, as the shaped operand and the linear parts outside of it. -/
theorem uniteSegmentWithPolygon_union {a : Segment} {b : Polygon} (hs : a.Proper) (hp : ValidPolygon b) :
    ∃ out, uniteSegmentWithPolygon o tb a b = .ok out ∧ out.pts = a.pts ∪ b.pts ∧
      ∃ g, g.IsSegments ∧ IsDifference a.pts b.pts g.pts ∧
        out = if g.isEmpty then .polygon b else .mix .empty g (.polygon b) := by
  obtain ⟨g, h, h1, h2⟩ := mixedUnion_result ok tb (segmentOperand_ok hs) (polygonOperand_ok hp)
  simp only [segmentOperand, segsPts_singleton, polygonOperand, polysPts_singleton] at h1
  refine ⟨_, h, ?_, g, ?_, h1, rfl⟩
  · exact mixedUnion_pts h1
  · rcases h2 with rfl | ⟨l, rfl, -⟩
    · trivial
    · exact unpackSegments_isSegments _

/-- **C39** `unite_segment_with_multipolygon`: the points of both operands, as the shaped operand and the linear parts outside of it. -/
theorem uniteSegmentWithMultipolygon_union {a : Segment} {b : List Polygon} (hs : a.Proper) (hb : b ≠ []) (vb : ValidPolygons b) :
    ∃ out, uniteSegmentWithMultipolygon o tb a b = .ok out ∧ out.pts = a.pts ∪ (polysPts b) ∧
      ∃ g, g.IsSegments ∧ IsDifference a.pts (polysPts b) g.pts ∧
        out = if g.isEmpty then .multipolygon b else .mix .empty g (.multipolygon b) := by
  obtain ⟨g, h, h1, h2⟩ := mixedUnion_result ok tb (segmentOperand_ok hs) (multipolygonOperand_ok hb vb)
  simp only [segmentOperand, segsPts_singleton, multipolygonOperand] at h1
  refine ⟨_, h, ?_, g, ?_, h1, rfl⟩
  · exact mixedUnion_pts h1
  · rcases h2 with rfl | ⟨l, rfl, -⟩
    · trivial
    · exact unpackSegments_isSegments _

/-- **C39** `unite_multisegment_with_polygon`: the points of both operands, as the shaped operand and the linear parts outside of it. -/
theorem uniteMultisegmentWithPolygon_union {a : List Segment} {b : Polygon} (ha : a ≠ []) (na : NoOverlap a) (hp : ValidPolygon b) :
    ∃ out, uniteMultisegmentWithPolygon o tb a b = .ok out ∧ out.pts = (segsPts a) ∪ b.pts ∧
      ∃ g, g.IsSegments ∧ IsDifference (segsPts a) b.pts g.pts ∧
        out = if g.isEmpty then .polygon b else .mix .empty g (.polygon b) := by
  obtain ⟨g, h, h1, h2⟩ := mixedUnion_result ok tb (multisegmentOperand_ok ha na) (polygonOperand_ok hp)
  simp only [multisegmentOperand, polygonOperand, polysPts_singleton] at h1
  refine ⟨_, h, ?_, g, ?_, h1, rfl⟩
  · exact mixedUnion_pts h1
  · rcases h2 with rfl | ⟨l, rfl, -⟩
    · trivial
    · exact unpackSegments_isSegments _

/-- **C39** `unite_multisegment_with_multipolygon`: the points of both operands, as the shaped operand and the linear parts outside of it. -/
theorem uniteMultisegmentWithMultipolygon_union {a : List Segment} {b : List Polygon} (ha : a ≠ []) (na : NoOverlap a) (hb : b ≠ []) (vb : ValidPolygons b) :
    ∃ out, uniteMultisegmentWithMultipolygon o tb a b = .ok out ∧ out.pts = (segsPts a) ∪ (polysPts b) ∧
      ∃ g, g.IsSegments ∧ IsDifference (segsPts a) (polysPts b) g.pts ∧
        out = if g.isEmpty then .multipolygon b else .mix .empty g (.multipolygon b) := by
  obtain ⟨g, h, h1, h2⟩ := mixedUnion_result ok tb (multisegmentOperand_ok ha na) (multipolygonOperand_ok hb vb)
  simp only [multisegmentOperand, multipolygonOperand] at h1
  refine ⟨_, h, ?_, g, ?_, h1, rfl⟩
  · exact mixedUnion_pts h1
  · rcases h2 with rfl | ⟨l, rfl, -⟩
    · trivial
    · exact unpackSegments_isSegments _

/-! ## Symmetric difference -/

/-- **C39** `symmetric_subtract_polygon_from_segment`: as the union, since a polygon without a segment is that polygon. -/
theorem symmetricSubtractPolygonFromSegment_union {a : Segment} {b : Polygon} (hs : a.Proper) (hp : ValidPolygon b) :
    ∃ out, symmetricSubtractPolygonFromSegment o tb a b = .ok out ∧ out.pts = a.pts ∪ b.pts ∧
      ∃ g, g.IsSegments ∧ IsDifference a.pts b.pts g.pts ∧
        out = if g.isEmpty then .polygon b else .mix .empty g (.polygon b) :=
  uniteSegmentWithPolygon_union ok tb hs hp

/-- **C39** `symmetric_subtract_multipolygon_from_segment`: as the union, since a polygon without a segment is that polygon. -/
theorem symmetricSubtractMultipolygonFromSegment_union {a : Segment} {b : List Polygon} (hs : a.Proper) (hb : b ≠ []) (vb : ValidPolygons b) :
    ∃ out, symmetricSubtractMultipolygonFromSegment o tb a b = .ok out ∧ out.pts = a.pts ∪ (polysPts b) ∧
      ∃ g, g.IsSegments ∧ IsDifference a.pts (polysPts b) g.pts ∧
        out = if g.isEmpty then .multipolygon b else .mix .empty g (.multipolygon b) :=
  uniteSegmentWithMultipolygon_union ok tb hs hb vb

/-- **C39** `symmetric_subtract_polygon_from_multisegment`: as the union, since a polygon without a segment is that polygon. -/
theorem symmetricSubtractPolygonFromMultisegment_union {a : List Segment} {b : Polygon} (ha : a ≠ []) (na : NoOverlap a) (hp : ValidPolygon b) :
    ∃ out, symmetricSubtractPolygonFromMultisegment o tb a b = .ok out ∧ out.pts = (segsPts a) ∪ b.pts ∧
      ∃ g, g.IsSegments ∧ IsDifference (segsPts a) b.pts g.pts ∧
        out = if g.isEmpty then .polygon b else .mix .empty g (.polygon b) :=
  uniteMultisegmentWithPolygon_union ok tb ha na hp

/-- **C39** `symmetric_subtract_multipolygon_from_multisegment`: as the union, since a polygon without a segment is that polygon. -/
theorem symmetricSubtractMultipolygonFromMultisegment_union {a : List Segment} {b : List Polygon} (ha : a ≠ []) (na : NoOverlap a) (hb : b ≠ []) (vb : ValidPolygons b) :
    ∃ out, symmetricSubtractMultipolygonFromMultisegment o tb a b = .ok out ∧ out.pts = (segsPts a) ∪ (polysPts b) ∧
      ∃ g, g.IsSegments ∧ IsDifference (segsPts a) (polysPts b) g.pts ∧
        out = if g.isEmpty then .multipolygon b else .mix .empty g (.multipolygon b) :=
  uniteMultisegmentWithMultipolygon_union ok tb ha na hb vb

/-- **C40** Results on valid operands are well-formed: no segment of zero length, no two segments cross or overlap, a
multisegment has at least two segments, isolated points are not repeated.  For the union this holds for its linear
part. -/
theorem mixed_operations_wellFormed {a : List Segment} {t : Segment} {b : Polygon} {bs : List Polygon}
    (ha : 2 ≤ a.length) (na : ValidSegments a) (ht : t.Proper) (hb : ValidPolygon b) (hbs : bs ≠ [])
    (vb : ValidPolygons bs) :
    (∀ g, (subtractPolygonFromSegment o tb t b = .ok g ∨ subtractMultipolygonFromSegment o tb t bs = .ok g ∨
      subtractPolygonFromMultisegment o tb a b = .ok g ∨ subtractMultipolygonFromMultisegment o tb a bs = .ok g) →
        g.LinearOk) ∧
    (∀ out, (uniteSegmentWithPolygon o tb t b = .ok out ∨ uniteMultisegmentWithPolygon o tb a b = .ok out) →
      ∃ g, g.LinearOk ∧ out = if g.isEmpty then .polygon b else .mix .empty g (.polygon b)) ∧
    (∀ out, (uniteSegmentWithMultipolygon o tb t bs = .ok out ∨ uniteMultisegmentWithMultipolygon o tb a bs = .ok out) →
      ∃ g, g.LinearOk ∧ out = if g.isEmpty then .multipolygon bs else .mix .empty g (.multipolygon bs)) := by
  have ka : OperandOk (multisegmentOperand a) := multisegmentOperand_ok (by rintro rfl; simp at ha) na.noOverlap
  have kt := segmentOperand_ok ht
  have kb := polygonOperand_ok hb
  have kbs := multipolygonOperand_ok hbs vb
  have vt : ValidSegments (segmentOperand t).segments := ⟨by simpa [segmentOperand] using ht, by simp [segmentOperand]⟩
  have diff : ∀ {l s g}, OperandOk l → ShapedOk s → l.value.LinearOk → mixedDifference o tb l s = .ok g → g.LinearOk := by
    intro l s g kl ks hv h
    obtain ⟨g', h', -, -, -, hl⟩ := mixedDifference_result ok tb kl ks
    have := h'.symm.trans h; cases this
    rcases hl with rfl | ⟨r, rfl, hr⟩
    · exact hv
    · exact unpackSegments_ok hr
  have uni : ∀ {l s out}, OperandOk l → ShapedOk s → l.value.LinearOk → ValidSegments l.segments →
      mixedUnion o tb l s = .ok out → ∃ g, g.LinearOk ∧ out = if g.isEmpty then s.value else .mix .empty g s.value := by
    intro l s g kl ks hv hs h
    obtain ⟨g', h', -, hl⟩ := mixedUnion_result ok tb kl ks
    have := h'.symm.trans h; cases this
    refine ⟨g', ?_, rfl⟩
    rcases hl with rfl | ⟨r, rfl, hr⟩
    · exact hv
    · exact unpackSegments_ok (hr hs)
  refine ⟨?_, ?_, ?_⟩
  · rintro g (h | h | h | h)
    · exact diff kt kb ht h
    · exact diff kt kbs ht h
    · exact diff ka kb ⟨ha, na⟩ h
    · exact diff ka kbs ⟨ha, na⟩ h
  · rintro g (h | h)
    · exact uni kt kb ht vt h
    · exact uni ka kb ⟨ha, na⟩ na h
  · rintro g (h | h)
    · exact uni kt kbs ht vt h
    · exact uni ka kbs ⟨ha, na⟩ na h

/-! ## What is wrong with the difference -/

omit ok in
/-- Two edges of the hole of `frame 0 0 4 1 2`. -/
def exHole : List Segment := [⟨⟨1, 1⟩, ⟨3, 1⟩⟩, ⟨⟨3, 1⟩, ⟨3, 3⟩⟩]

omit ok in
theorem exHole_valid : ValidSegments exHole := by
  refine Swept.valid ⟨by decide +kernel, by decide +kernel, by decide +kernel, ?_⟩
  simp only [exHole, EndsOnly, List.pairwise_cons, List.mem_singleton, forall_eq, List.not_mem_nil, false_imp_iff,
    implies_true, List.Pairwise.nil, and_true]
  intro q h1 h2
  rw [mem_horizontal_iff (by norm_num)] at h1
  rw [mem_vertical_iff (by norm_num)] at h2
  have : q = ⟨3, 1⟩ := by ext <;> simp [h1.1, h2.1]
  subst this
  exact ⟨Or.inr rfl, Or.inl rfl⟩

/-- **C38, what is wrong**: `subtract_polygon_from_multisegment` returns the minuend when its box is in a hole of the
polygon, though the minuend may have edges of the hole, which belong to the polygon. -/
theorem subtractPolygonFromMultisegment_incomplete : ¬ ∀ (a : List Segment) (b : Polygon), 2 ≤ a.length →
    ValidSegments a → ValidPolygon b → ∃ g, subtractPolygonFromMultisegment o tb a b = .ok g ∧
      IsDifference (segsPts a) b.pts g.pts := by
  intro h
  obtain ⟨g, h1, h2⟩ := h exHole (frame 0 0 4 1 2) (by decide) exHole_valid
    (frame_valid (by norm_num) (by norm_num) (by norm_num))
  have e : subtractPolygonFromMultisegment o tb exHole (frame 0 0 4 1 2) = .ok (.multisegment exHole) := by
    unfold subtractPolygonFromMultisegment mixedDifference
    have b1 : boxOf (multisegmentOperand exHole).segments = .ok ⟨1, 3, 1, 3⟩ := by decide +kernel
    have b2 : polygonsBox (polygonOperand (frame 0 0 4 1 2)).polygons = .ok ⟨0, 4, 0, 4⟩ := by decide +kernel
    rw [b1, b2]
    simp only [bind, Except.bind, pure, Except.pure]
    rw [if_neg (by decide +kernel)]
    have : toCoupledPolygons o ⟨1, 3, 1, 3⟩ (polygonOperand (frame 0 0 4 1 2)).polygons = [] := by
      unfold toCoupledPolygons polygonOperand
      simp [coupledWithPolygon_hole ok]
    rw [this]
    rfl
  rw [e] at h1
  cases h1
  refine frame_hole_infinite (h2.finite.subset ?_)
  rintro p ⟨h3, h4⟩
  exact ⟨⟨_, by simp [exHole], h3⟩, h4⟩

/-! ## Witnesses: segments which cross a square with a square hole, touch it, run along its border and edges of the
hole, or lie in the hole -/

omit ok

/-- Answers of `orient` are not needed for the operands below. -/
def noOrient : Orient := ⟨fun _ _ => .exterior, fun _ _ => .disjoint, fun _ _ => .disjoint⟩

def exCut : List Segment := [⟨⟨-1, 2⟩, ⟨5, 2⟩⟩, ⟨⟨1, 1⟩, ⟨3, 1⟩⟩, ⟨⟨0, 4⟩, ⟨-1, 5⟩⟩, ⟨⟨3, 4⟩, ⟨6, 4⟩⟩]

theorem exCut_noOverlap : NoOverlap exCut := by
  refine ⟨by decide +kernel, ?_⟩
  have key : exCut.Pairwise fun s t => segmentsRelation s t = .disjoint := by decide +kernel
  refine key.imp_of_mem ?_
  rintro s t hs ht h ⟨p, q, -, h1, -, h3, -⟩
  have ps : ∀ s ∈ exCut, s.Proper := by decide +kernel
  exact ((relation_meets s t (ps t ht)).not.1 (by simpa using h)) ⟨p, h1, h3⟩

example : exCut ≠ [] ∧ NoOverlap exCut ∧ ValidPolygon (frame 0 0 4 1 2) ∧ (∃ o, OrientOk o) ∧
    intersectMultisegmentWithPolygon noOrient .id exCut (frame 0 0 4 1 2) = .ok (.multisegment
      [⟨⟨0, 2⟩, ⟨1, 2⟩⟩, ⟨⟨1, 1⟩, ⟨3, 1⟩⟩, ⟨⟨3, 2⟩, ⟨4, 2⟩⟩, ⟨⟨3, 4⟩, ⟨4, 4⟩⟩]) ∧
    completeIntersectMultisegmentWithPolygon noOrient .id exCut (frame 0 0 4 1 2) = .ok (.mix (.multipoint [⟨0, 4⟩])
      (.multisegment [⟨⟨0, 2⟩, ⟨1, 2⟩⟩, ⟨⟨1, 1⟩, ⟨3, 1⟩⟩, ⟨⟨3, 2⟩, ⟨4, 2⟩⟩, ⟨⟨3, 4⟩, ⟨4, 4⟩⟩]) .empty) ∧
    subtractPolygonFromMultisegment noOrient .id exCut (frame 0 0 4 1 2) = .ok (.multisegment
      [⟨⟨-1, 2⟩, ⟨0, 2⟩⟩, ⟨⟨-1, 5⟩, ⟨0, 4⟩⟩, ⟨⟨1, 2⟩, ⟨3, 2⟩⟩, ⟨⟨4, 2⟩, ⟨5, 2⟩⟩, ⟨⟨4, 4⟩, ⟨6, 4⟩⟩]) ∧
    uniteMultisegmentWithPolygon noOrient .id exCut (frame 0 0 4 1 2) = .ok (.mix .empty (.multisegment
      [⟨⟨-1, 2⟩, ⟨0, 2⟩⟩, ⟨⟨-1, 5⟩, ⟨0, 4⟩⟩, ⟨⟨1, 2⟩, ⟨3, 2⟩⟩, ⟨⟨4, 2⟩, ⟨5, 2⟩⟩, ⟨⟨4, 4⟩, ⟨6, 4⟩⟩])
      (.polygon (frame 0 0 4 1 2))) :=
  ⟨by simp [exCut], exCut_noOverlap, frame_valid (by norm_num) (by norm_num) (by norm_num), exists_orient,
    by decide +kernel, by decide +kernel, by decide +kernel, by decide +kernel⟩

/-- a segment through two polygons with holes -/
example : (Segment.mk ⟨-1, 5⟩ ⟨11, -1⟩).Proper ∧ ValidPolygons [frame 0 0 4 1 2, frame 6 0 4 1 2] ∧
    (∀ p ∈ [frame 0 0 4 1 2, frame 6 0 4 1 2], ∀ c ∈ p.holes,
      ((Segment.mk ⟨-1, 5⟩ ⟨11, -1⟩).pts ∩ segsPts c.edges).Finite) ∧
    subtractMultipolygonFromSegment noOrient .id ⟨⟨-1, 5⟩, ⟨11, -1⟩⟩ [frame 0 0 4 1 2, frame 6 0 4 1 2] =
      .ok (.multisegment [⟨⟨-1, 5⟩, ⟨1, 4⟩⟩, ⟨⟨4, 5 / 2⟩, ⟨6, 3 / 2⟩⟩, ⟨⟨9, 0⟩, ⟨11, -1⟩⟩]) := by
  refine ⟨by decide +kernel, by refine frames_valid ?_ ?_ ?_ ?_ <;> norm_num, ?_, by decide +kernel⟩
  intro p hp c hc
  refine (Set.toFinite {(⟨3, 3⟩ : Point), ⟨7, 1⟩}).subset ?_
  rintro q ⟨⟨t, -, -, tx, ty⟩, h2⟩
  simp only [List.mem_cons, List.not_mem_nil, or_false] at hp
  have hq : q = ⟨q.x, q.y⟩ := rfl
  rw [hq]
  simp only at tx ty
  simp only [Set.mem_insert_iff, Set.mem_singleton_iff, Point.mk.injEq]
  rcases hp with rfl | rfl
  · left
    rw [List.mem_singleton.1 hc, square_segsPts (by norm_num)] at h2
    rcases h2 with h2 | h2 | h2 | h2 <;> constructor <;> linarith
  · right
    rw [List.mem_singleton.1 hc, square_segsPts (by norm_num)] at h2
    rcases h2 with h2 | h2 | h2 | h2 <;> constructor <;> linarith

end Clipping
