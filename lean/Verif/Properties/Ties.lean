import Verif.Lemmas.Ties
import Verif.Model.Planar
import Verif.Model.PlanarMixed
import Verif.Properties.Determinism
import Verif.Properties.Nary
import Verif.Properties.PolygonsHole

/-!
# C50: results do not depend on how the priority queue orders equal events

The order of events of the queue is not total on all events, and which one of equal events is processed first depends on the
external priority queue.  `tb` and `tb'` are any two ways to order them.
-/

namespace Clipping

open Sweep

/-- **C50** The reason: in every state of a sweep of operands without overlaps of their own, of two different waiting events one
precedes the other. -/
theorem waiting_events_distinct {α : Type} (O : Ops α) (d : α) (tb : TieBreak) {a b : List Segment} (va : NoOverlap a)
    (vb : NoOverlap b) {s : SweepState α} {log : List (Ev × ℕ)} (r : Reach O tb (initState O.toPayload d a b) s log)
    {e f : Ev} (he : e ∈ s.store.queue) (hf : f ∈ s.store.queue) (hne : e ≠ f) :
    precedes s.store.heap e f = true ∨ precedes s.store.heap f e = true := by
  obtain ⟨ε, Pt, Y, h, -⟩ := reach_ok O d tb (operandsOk_marked va vb)
  obtain ⟨F, p, S, -⟩ := h s log r
  by_contra hc
  simp only [not_or, Bool.not_eq_true] at hc
  exact hne (precedes_total S (S.queue.evOk e he) (S.queue.evOk f hf) hc.2 hc.1)

/-- **C50** `complete_intersect_segment_with_multisegment` -/
theorem completeIntersectSegmentWithMultisegment_tie (tb tb' : TieBreak) {a : Segment} {b : List Segment} (va : a.Proper) (vb : NoOverlap b) :
    completeIntersectSegmentWithMultisegment tb a b = completeIntersectSegmentWithMultisegment tb' a b :=
  linearCompleteIntersection_tie (segmentOperand_ok va).no vb tb tb'

/-- **C50** `subtract_multisegment_from_segment` -/
theorem subtractMultisegmentFromSegment_tie (tb tb' : TieBreak) {a : Segment} {b : List Segment} (va : a.Proper) (vb : NoOverlap b) :
    subtractMultisegmentFromSegment tb a b = subtractMultisegmentFromSegment tb' a b :=
  linearDifference_tie (segmentOperand_ok va).no vb tb tb'

/-- **C50** `symmetric_subtract_multisegment_from_segment` -/
theorem symmetricSubtractMultisegmentFromSegment_tie (tb tb' : TieBreak) {a : Segment} {b : List Segment} (va : a.Proper) (vb : NoOverlap b) :
    symmetricSubtractMultisegmentFromSegment tb a b = symmetricSubtractMultisegmentFromSegment tb' a b :=
  linearSymmetricDifference_tie (segmentOperand_ok va).no vb tb tb'

/-- **C50** `complete_intersect_multisegments` -/
theorem completeIntersectMultisegments_tie (tb tb' : TieBreak) {a b : List Segment} (va : NoOverlap a) (vb : NoOverlap b) :
    completeIntersectMultisegments tb a b = completeIntersectMultisegments tb' a b :=
  linearCompleteIntersection_tie va vb tb tb'

/-- **C50** `intersect_multisegments` -/
theorem intersectMultisegments_tie (tb tb' : TieBreak) {a b : List Segment} (va : NoOverlap a) (vb : NoOverlap b) :
    intersectMultisegments tb a b = intersectMultisegments tb' a b :=
  linearIntersection_tie va vb tb tb'

/-- **C50** `subtract_multisegments` -/
theorem subtractMultisegments_tie (tb tb' : TieBreak) {a b : List Segment} (va : NoOverlap a) (vb : NoOverlap b) :
    subtractMultisegments tb a b = subtractMultisegments tb' a b :=
  linearDifference_tie va vb tb tb'

/-- **C50** `symmetric_subtract_multisegments` -/
theorem symmetricSubtractMultisegments_tie (tb tb' : TieBreak) {a b : List Segment} (va : NoOverlap a) (vb : NoOverlap b) :
    symmetricSubtractMultisegments tb a b = symmetricSubtractMultisegments tb' a b :=
  linearSymmetricDifference_tie va vb tb tb'

/-- **C50** `unite_multisegments` -/
theorem uniteMultisegments_tie (tb tb' : TieBreak) {a b : List Segment} (va : NoOverlap a) (vb : NoOverlap b) :
    uniteMultisegments tb a b = uniteMultisegments tb' a b :=
  linearUnion_tie va vb tb tb'

/-- **C50** `complete_intersect_segment_with_polygon` -/
theorem completeIntersectSegmentWithPolygon_tie (o : Orient) (tb tb' : TieBreak) {a : Segment} {b : Polygon} (va : a.Proper) (vb : ValidPolygon b) :
    completeIntersectSegmentWithPolygon o tb a b = completeIntersectSegmentWithPolygon o tb' a b :=
  mixedCompleteIntersection_tie o (segmentOperand_ok va).no (polygonOperand_ok vb).valid tb tb'

/-- **C50** `intersect_segment_with_polygon` -/
theorem intersectSegmentWithPolygon_tie (o : Orient) (tb tb' : TieBreak) {a : Segment} {b : Polygon} (va : a.Proper) (vb : ValidPolygon b) :
    intersectSegmentWithPolygon o tb a b = intersectSegmentWithPolygon o tb' a b :=
  mixedIntersection_tie o (segmentOperand_ok va).no (polygonOperand_ok vb).valid tb tb'

/-- **C50** `subtract_polygon_from_segment` -/
theorem subtractPolygonFromSegment_tie (o : Orient) (tb tb' : TieBreak) {a : Segment} {b : Polygon} (va : a.Proper) (vb : ValidPolygon b) :
    subtractPolygonFromSegment o tb a b = subtractPolygonFromSegment o tb' a b :=
  mixedDifference_tie o (segmentOperand_ok va).no (polygonOperand_ok vb).valid tb tb'

/-- **C50** `symmetric_subtract_polygon_from_segment` -/
theorem symmetricSubtractPolygonFromSegment_tie (o : Orient) (tb tb' : TieBreak) {a : Segment} {b : Polygon} (va : a.Proper) (vb : ValidPolygon b) :
    symmetricSubtractPolygonFromSegment o tb a b = symmetricSubtractPolygonFromSegment o tb' a b :=
  mixedUnion_tie o (segmentOperand_ok va).no (polygonOperand_ok vb).valid tb tb'

/-- **C50** `unite_segment_with_polygon` -/
theorem uniteSegmentWithPolygon_tie (o : Orient) (tb tb' : TieBreak) {a : Segment} {b : Polygon} (va : a.Proper) (vb : ValidPolygon b) :
    uniteSegmentWithPolygon o tb a b = uniteSegmentWithPolygon o tb' a b :=
  mixedUnion_tie o (segmentOperand_ok va).no (polygonOperand_ok vb).valid tb tb'

/-- **C50** `complete_intersect_segment_with_multipolygon` -/
theorem completeIntersectSegmentWithMultipolygon_tie (o : Orient) (tb tb' : TieBreak) {a : Segment} {b : List Polygon} (va : a.Proper) (vb : ValidPolygons b) :
    completeIntersectSegmentWithMultipolygon o tb a b = completeIntersectSegmentWithMultipolygon o tb' a b :=
  mixedCompleteIntersection_tie o (segmentOperand_ok va).no vb tb tb'

/-- **C50** `intersect_segment_with_multipolygon` -/
theorem intersectSegmentWithMultipolygon_tie (o : Orient) (tb tb' : TieBreak) {a : Segment} {b : List Polygon} (va : a.Proper) (vb : ValidPolygons b) :
    intersectSegmentWithMultipolygon o tb a b = intersectSegmentWithMultipolygon o tb' a b :=
  mixedIntersection_tie o (segmentOperand_ok va).no vb tb tb'

/-- **C50** `subtract_multipolygon_from_segment` -/
theorem subtractMultipolygonFromSegment_tie (o : Orient) (tb tb' : TieBreak) {a : Segment} {b : List Polygon} (va : a.Proper) (vb : ValidPolygons b) :
    subtractMultipolygonFromSegment o tb a b = subtractMultipolygonFromSegment o tb' a b :=
  mixedDifference_tie o (segmentOperand_ok va).no vb tb tb'

/-- **C50** `symmetric_subtract_multipolygon_from_segment` -/
theorem symmetricSubtractMultipolygonFromSegment_tie (o : Orient) (tb tb' : TieBreak) {a : Segment} {b : List Polygon} (va : a.Proper) (vb : ValidPolygons b) :
    symmetricSubtractMultipolygonFromSegment o tb a b = symmetricSubtractMultipolygonFromSegment o tb' a b :=
  mixedUnion_tie o (segmentOperand_ok va).no vb tb tb'

/-- **C50** `unite_segment_with_multipolygon` -/
theorem uniteSegmentWithMultipolygon_tie (o : Orient) (tb tb' : TieBreak) {a : Segment} {b : List Polygon} (va : a.Proper) (vb : ValidPolygons b) :
    uniteSegmentWithMultipolygon o tb a b = uniteSegmentWithMultipolygon o tb' a b :=
  mixedUnion_tie o (segmentOperand_ok va).no vb tb tb'

/-- **C50** `complete_intersect_multisegment_with_polygon` -/
theorem completeIntersectMultisegmentWithPolygon_tie (o : Orient) (tb tb' : TieBreak) {a : List Segment} {b : Polygon} (va : NoOverlap a) (vb : ValidPolygon b) :
    completeIntersectMultisegmentWithPolygon o tb a b = completeIntersectMultisegmentWithPolygon o tb' a b :=
  mixedCompleteIntersection_tie o va (polygonOperand_ok vb).valid tb tb'

/-- **C50** `intersect_multisegment_with_polygon` -/
theorem intersectMultisegmentWithPolygon_tie (o : Orient) (tb tb' : TieBreak) {a : List Segment} {b : Polygon} (va : NoOverlap a) (vb : ValidPolygon b) :
    intersectMultisegmentWithPolygon o tb a b = intersectMultisegmentWithPolygon o tb' a b :=
  mixedIntersection_tie o va (polygonOperand_ok vb).valid tb tb'

/-- **C50** `subtract_polygon_from_multisegment` -/
theorem subtractPolygonFromMultisegment_tie (o : Orient) (tb tb' : TieBreak) {a : List Segment} {b : Polygon} (va : NoOverlap a) (vb : ValidPolygon b) :
    subtractPolygonFromMultisegment o tb a b = subtractPolygonFromMultisegment o tb' a b :=
  mixedDifference_tie o va (polygonOperand_ok vb).valid tb tb'

/-- **C50** `symmetric_subtract_polygon_from_multisegment` -/
theorem symmetricSubtractPolygonFromMultisegment_tie (o : Orient) (tb tb' : TieBreak) {a : List Segment} {b : Polygon} (va : NoOverlap a) (vb : ValidPolygon b) :
    symmetricSubtractPolygonFromMultisegment o tb a b = symmetricSubtractPolygonFromMultisegment o tb' a b :=
  mixedUnion_tie o va (polygonOperand_ok vb).valid tb tb'

/-- **C50** `unite_multisegment_with_polygon` -/
theorem uniteMultisegmentWithPolygon_tie (o : Orient) (tb tb' : TieBreak) {a : List Segment} {b : Polygon} (va : NoOverlap a) (vb : ValidPolygon b) :
    uniteMultisegmentWithPolygon o tb a b = uniteMultisegmentWithPolygon o tb' a b :=
  mixedUnion_tie o va (polygonOperand_ok vb).valid tb tb'

/-- **C50** `complete_intersect_multisegment_with_multipolygon` -/
theorem completeIntersectMultisegmentWithMultipolygon_tie (o : Orient) (tb tb' : TieBreak) {a : List Segment} {b : List Polygon} (va : NoOverlap a) (vb : ValidPolygons b) :
    completeIntersectMultisegmentWithMultipolygon o tb a b = completeIntersectMultisegmentWithMultipolygon o tb' a b :=
  mixedCompleteIntersection_tie o va vb tb tb'

/-- **C50** `intersect_multisegment_with_multipolygon` -/
theorem intersectMultisegmentWithMultipolygon_tie (o : Orient) (tb tb' : TieBreak) {a : List Segment} {b : List Polygon} (va : NoOverlap a) (vb : ValidPolygons b) :
    intersectMultisegmentWithMultipolygon o tb a b = intersectMultisegmentWithMultipolygon o tb' a b :=
  mixedIntersection_tie o va vb tb tb'

/-- **C50** `subtract_multipolygon_from_multisegment` -/
theorem subtractMultipolygonFromMultisegment_tie (o : Orient) (tb tb' : TieBreak) {a : List Segment} {b : List Polygon} (va : NoOverlap a) (vb : ValidPolygons b) :
    subtractMultipolygonFromMultisegment o tb a b = subtractMultipolygonFromMultisegment o tb' a b :=
  mixedDifference_tie o va vb tb tb'

/-- **C50** `symmetric_subtract_multipolygon_from_multisegment` -/
theorem symmetricSubtractMultipolygonFromMultisegment_tie (o : Orient) (tb tb' : TieBreak) {a : List Segment} {b : List Polygon} (va : NoOverlap a) (vb : ValidPolygons b) :
    symmetricSubtractMultipolygonFromMultisegment o tb a b = symmetricSubtractMultipolygonFromMultisegment o tb' a b :=
  mixedUnion_tie o va vb tb tb'

/-- **C50** `unite_multisegment_with_multipolygon` -/
theorem uniteMultisegmentWithMultipolygon_tie (o : Orient) (tb tb' : TieBreak) {a : List Segment} {b : List Polygon} (va : NoOverlap a) (vb : ValidPolygons b) :
    uniteMultisegmentWithMultipolygon o tb a b = uniteMultisegmentWithMultipolygon o tb' a b :=
  mixedUnion_tie o va vb tb tb'

/-- **C50** `complete_intersect_polygons` -/
theorem completeIntersectPolygons_tie (o : Orient) (tb tb' : TieBreak) {a b : Polygon} (va : ValidPolygon a) (vb : ValidPolygon b) :
    completeIntersectPolygons o tb a b = completeIntersectPolygons o tb' a b :=
  holeyCompleteIntersection_tie o (polygonOperand_ok va).valid (polygonOperand_ok vb).valid tb tb'

/-- **C50** `intersect_polygons` -/
theorem intersectPolygons_tie (o : Orient) (tb tb' : TieBreak) {a b : Polygon} (va : ValidPolygon a) (vb : ValidPolygon b) :
    intersectPolygons o tb a b = intersectPolygons o tb' a b :=
  holeyIntersection_tie o (polygonOperand_ok va).valid (polygonOperand_ok vb).valid tb tb'

/-- **C50** `subtract_polygons` -/
theorem subtractPolygons_tie (o : Orient) (tb tb' : TieBreak) {a b : Polygon} (va : ValidPolygon a) (vb : ValidPolygon b) :
    subtractPolygons o tb a b = subtractPolygons o tb' a b :=
  holeyDifference_tie o (polygonOperand_ok va).valid (polygonOperand_ok vb).valid tb tb'

/-- **C50** `symmetric_subtract_polygons` -/
theorem symmetricSubtractPolygons_tie (tb tb' : TieBreak) {a b : Polygon} (va : ValidPolygon a) (vb : ValidPolygon b) :
    symmetricSubtractPolygons tb a b = symmetricSubtractPolygons tb' a b :=
  holeySymmetricDifference_tie (polygonOperand_ok va).valid (polygonOperand_ok vb).valid tb tb'

/-- **C50** `unite_polygons` -/
theorem unitePolygons_tie (tb tb' : TieBreak) {a b : Polygon} (va : ValidPolygon a) (vb : ValidPolygon b) :
    unitePolygons tb a b = unitePolygons tb' a b :=
  holeyUnion_tie (polygonOperand_ok va).valid (polygonOperand_ok vb).valid tb tb'

/-- **C50** `complete_intersect_polygon_with_multipolygon` -/
theorem completeIntersectPolygonWithMultipolygon_tie (o : Orient) (tb tb' : TieBreak) {a : Polygon} {b : List Polygon} (va : ValidPolygon a) (vb : ValidPolygons b) :
    completeIntersectPolygonWithMultipolygon o tb a b = completeIntersectPolygonWithMultipolygon o tb' a b :=
  holeyCompleteIntersection_tie o (polygonOperand_ok va).valid vb tb tb'

/-- **C50** `intersect_polygon_with_multipolygon` -/
theorem intersectPolygonWithMultipolygon_tie (o : Orient) (tb tb' : TieBreak) {a : Polygon} {b : List Polygon} (va : ValidPolygon a) (vb : ValidPolygons b) :
    intersectPolygonWithMultipolygon o tb a b = intersectPolygonWithMultipolygon o tb' a b :=
  holeyIntersection_tie o (polygonOperand_ok va).valid vb tb tb'

/-- **C50** `subtract_multipolygon_from_polygon` -/
theorem subtractMultipolygonFromPolygon_tie (o : Orient) (tb tb' : TieBreak) {a : Polygon} {b : List Polygon} (va : ValidPolygon a) (vb : ValidPolygons b) :
    subtractMultipolygonFromPolygon o tb a b = subtractMultipolygonFromPolygon o tb' a b :=
  holeyDifference_tie o (polygonOperand_ok va).valid vb tb tb'

/-- **C50** `subtract_polygon_from_multipolygon` -/
theorem subtractPolygonFromMultipolygon_tie (o : Orient) (tb tb' : TieBreak) {a : List Polygon} {b : Polygon} (va : ValidPolygons a) (vb : ValidPolygon b) :
    subtractPolygonFromMultipolygon o tb a b = subtractPolygonFromMultipolygon o tb' a b :=
  holeyDifference_tie o va (polygonOperand_ok vb).valid tb tb'

/-- **C50** `symmetric_subtract_multipolygon_from_polygon` -/
theorem symmetricSubtractMultipolygonFromPolygon_tie (tb tb' : TieBreak) {a : Polygon} {b : List Polygon} (va : ValidPolygon a) (vb : ValidPolygons b) :
    symmetricSubtractMultipolygonFromPolygon tb a b = symmetricSubtractMultipolygonFromPolygon tb' a b :=
  holeySymmetricDifference_tie (polygonOperand_ok va).valid vb tb tb'

/-- **C50** `unite_polygon_with_multipolygon` -/
theorem unitePolygonWithMultipolygon_tie (tb tb' : TieBreak) {a : Polygon} {b : List Polygon} (va : ValidPolygon a) (vb : ValidPolygons b) :
    unitePolygonWithMultipolygon tb a b = unitePolygonWithMultipolygon tb' a b :=
  holeyUnion_tie (polygonOperand_ok va).valid vb tb tb'

/-- **C50** `complete_intersect_multipolygons` -/
theorem completeIntersectMultipolygons_tie (o : Orient) (tb tb' : TieBreak) {a b : List Polygon} (va : ValidPolygons a) (vb : ValidPolygons b) :
    completeIntersectMultipolygons o tb a b = completeIntersectMultipolygons o tb' a b :=
  holeyCompleteIntersection_tie o va vb tb tb'

/-- **C50** `intersect_multipolygons` -/
theorem intersectMultipolygons_tie (o : Orient) (tb tb' : TieBreak) {a b : List Polygon} (va : ValidPolygons a) (vb : ValidPolygons b) :
    intersectMultipolygons o tb a b = intersectMultipolygons o tb' a b :=
  holeyIntersection_tie o va vb tb tb'

/-- **C50** `subtract_multipolygons` -/
theorem subtractMultipolygons_tie (o : Orient) (tb tb' : TieBreak) {a b : List Polygon} (va : ValidPolygons a) (vb : ValidPolygons b) :
    subtractMultipolygons o tb a b = subtractMultipolygons o tb' a b :=
  holeyDifference_tie o va vb tb tb'

/-- **C50** `symmetric_subtract_multipolygons` -/
theorem symmetricSubtractMultipolygons_tie (tb tb' : TieBreak) {a b : List Polygon} (va : ValidPolygons a) (vb : ValidPolygons b) :
    symmetricSubtractMultipolygons tb a b = symmetricSubtractMultipolygons tb' a b :=
  holeySymmetricDifference_tie va vb tb tb'

/-- **C50** `unite_multipolygons` -/
theorem uniteMultipolygons_tie (tb tb' : TieBreak) {a b : List Polygon} (va : ValidPolygons a) (vb : ValidPolygons b) :
    uniteMultipolygons tb a b = uniteMultipolygons tb' a b :=
  holeyUnion_tie va vb tb tb'

/-- **C50** `intersect_regions` -/
theorem intersectRegions_tie (o : Orient) (tb tb' : TieBreak) {a b : Contour} (va : SimpleContour a) (vb : SimpleContour b) :
    intersectRegions o tb a b = intersectRegions o tb' a b :=
  (intersectRegions_comm o tb tb' va vb).trans (intersectRegions_comm o tb' tb' vb va)

/-- **C50** `complete_intersect_regions` -/
theorem completeIntersectRegions_tie (o : Orient) (tb tb' : TieBreak) {a b : Contour} (va : SimpleContour a) (vb : SimpleContour b) :
    completeIntersectRegions o tb a b = completeIntersectRegions o tb' a b :=
  (completeIntersectRegions_comm o tb tb' va vb).trans (completeIntersectRegions_comm o tb' tb' vb va)

/-- **C50** `intersect_region_with_multiregion` -/
theorem intersectRegionWithMultiregion_tie (o : Orient) (tb tb' : TieBreak) {a : Contour} {b : List Contour} (va : SimpleContour a) (nb : b ≠ []) (vb : ValidRegions b) :
    intersectRegionWithMultiregion o tb a b = intersectRegionWithMultiregion o tb' a b :=
  (intersectRegionWithMultiregion_comm o tb tb' va nb vb).1

/-- **C50** `complete_intersect_region_with_multiregion` -/
theorem completeIntersectRegionWithMultiregion_tie (o : Orient) (tb tb' : TieBreak) {a : Contour} {b : List Contour} (va : SimpleContour a) (nb : b ≠ []) (vb : ValidRegions b) :
    completeIntersectRegionWithMultiregion o tb a b = completeIntersectRegionWithMultiregion o tb' a b :=
  (completeIntersectRegionWithMultiregion_comm o tb tb' va nb vb).1

/-- **C50** `intersect_multiregions` -/
theorem intersectMultiregions_tie (o : Orient) (tb tb' : TieBreak) {a b : List Contour} (na : a ≠ []) (va : ValidRegions a) (nb : b ≠ []) (vb : ValidRegions b) :
    intersectMultiregions o tb a b = intersectMultiregions o tb' a b :=
  (intersectMultiregions_comm o tb tb' na va nb vb).trans (intersectMultiregions_comm o tb' tb' nb vb na va)

/-- **C50** `complete_intersect_multiregions` -/
theorem completeIntersectMultiregions_tie (o : Orient) (tb tb' : TieBreak) {a b : List Contour} (na : a ≠ []) (va : ValidRegions a) (nb : b ≠ []) (vb : ValidRegions b) :
    completeIntersectMultiregions o tb a b = completeIntersectMultiregions o tb' a b :=
  (completeIntersectMultiregions_comm o tb tb' na va nb vb).trans (completeIntersectMultiregions_comm o tb' tb' nb vb na va)

/-- Equal events in the opposite order. -/
def TieBreak.reversed : TieBreak := ⟨List.reverse, fun l => List.reverse_perm l⟩

/-- The order of equal events matters where they exist: for a repeated segment the first event depends on it. -/
example : ((pop TieBreak.id (initStore linearOps.toPayload () [⟨⟨0, 0⟩, ⟨1, 1⟩⟩, ⟨⟨0, 0⟩, ⟨1, 1⟩⟩] [])).map Prod.fst,
    (pop TieBreak.reversed (initStore linearOps.toPayload () [⟨⟨0, 0⟩, ⟨1, 1⟩⟩, ⟨⟨0, 0⟩, ⟨1, 1⟩⟩] [])).map Prod.fst) =
    (some (.left 0), some (.left 1)) := by
  decide +kernel

example : uniteMultipolygons TieBreak.id exFrame exFrame' = uniteMultipolygons TieBreak.reversed exFrame exFrame' :=
  uniteMultipolygons_tie _ _ exFrame_valid exFrame'_valid

/-- The difference of two frames is a result with points. -/
example (tb : TieBreak) : subtractMultipolygons (Classical.choose exists_orient) tb exFrame exFrame' =
    subtractMultipolygons (Classical.choose exists_orient) TieBreak.reversed exFrame exFrame' :=
  subtractMultipolygons_tie _ _ _ exFrame_valid exFrame'_valid

/-- Touching polygons for which the results are wrong. -/
example (tb tb' : TieBreak) : symmetricSubtractPolygons tb exTouching exWedge = symmetricSubtractPolygons tb' exTouching exWedge :=
  symmetricSubtractPolygons_tie _ _ exTouching_valid exWedge_valid

example (o : Orient) (tb tb' : TieBreak) : subtractPolygonFromSegment o tb ⟨⟨0, 0⟩, ⟨9, 1⟩⟩ exTouching =
    subtractPolygonFromSegment o tb' ⟨⟨0, 0⟩, ⟨9, 1⟩⟩ exTouching :=
  subtractPolygonFromSegment_tie o _ _ (by decide +kernel) exTouching_valid

example (tb tb' : TieBreak) : symmetricSubtractMultisegments tb [⟨⟨0, 0⟩, ⟨2, 2⟩⟩] [⟨⟨0, 2⟩, ⟨2, 0⟩⟩, ⟨⟨1, 1⟩, ⟨3, 3⟩⟩] =
    symmetricSubtractMultisegments tb' [⟨⟨0, 0⟩, ⟨2, 2⟩⟩] [⟨⟨0, 2⟩, ⟨2, 0⟩⟩, ⟨⟨1, 1⟩, ⟨3, 3⟩⟩] :=
  symmetricSubtractMultisegments_tie _ _ ⟨by simp [Segment.Proper], by simp⟩
    (noOverlap_of_crossing (by decide +kernel) (by decide +kernel) (by decide +kernel))

end Clipping
