import Verif.Lemmas.Mixed.Result
import Verif.Lemmas.Sweep.Ties
import Verif.Model.Holey

/-!
# Operations on valid operands do not depend on how the queue orders equal events
-/

namespace Clipping

open Sweep

theorem linearSweep_tie (tb tb' : TieBreak) (xmax : Option ℚ) {a b : List Segment} (ha : NoOverlap a) (hb : NoOverlap b) :
    linearSweep tb xmax a b = linearSweep tb' xmax a b := by
  unfold linearSweep
  rw [sweep_tie _ _ tb tb' _ (operandsOk_marked ha hb)]

theorem linearSweepAll_tie (tb tb' : TieBreak) (xmax : ℚ) {a b : List Segment} (ha : NoOverlap a) (hb : NoOverlap b) :
    linearSweepAll tb xmax a b = linearSweepAll tb' xmax a b := by
  unfold linearSweepAll
  rw [sweep_tie _ _ tb tb' _ (operandsOk_marked ha hb)]

theorem mixedSweep_tie (sel : Bool → MixedData → Bool) (tb tb' : TieBreak) (xmax : Option ℚ) {a : List Segment}
    {b : List Polygon} (ha : NoOverlap a) (hb : ValidPolygons b) : mixedSweep sel tb xmax a b = mixedSweep sel tb' xmax a b := by
  unfold mixedSweep
  rw [sweep_tie _ _ tb tb' _ (operandsOk_marked ha hb.isBoundary.noOverlap)]

theorem holeySweep_tie (rule : ShapedRule) (tb tb' : TieBreak) (xmax : Option ℚ) {a b : List Polygon} (ha : ValidPolygons a)
    (hb : ValidPolygons b) : holeySweep rule tb xmax a b = holeySweep rule tb' xmax a b := by
  unfold holeySweep shapedSweep
  rw [sweep_tie _ _ tb tb' _ (operandsOk_marked ha.isBoundary.noOverlap hb.isBoundary.noOverlap)]

section linear

variable {a b : LinearOperand} (ha : NoOverlap a.segments) (hb : NoOverlap b.segments) (tb tb' : TieBreak)

include ha hb

theorem linearDifference_tie : linearDifference tb a b = linearDifference tb' a b := by
  have h : ∀ box x, linearSweep tb x a.segments (toCoupledSegments box b.segments) =
      linearSweep tb' x a.segments (toCoupledSegments box b.segments) := fun box x =>
    linearSweep_tie tb tb' x ha (hb.sublist List.filter_sublist)
  unfold linearDifference
  simp only [h]

theorem linearIntersection_tie : linearIntersection tb a b = linearIntersection tb' a b := by
  have h : ∀ box box' x, linearSweep tb x (toCoupledSegments box a.segments) (toCoupledSegments box' b.segments) =
      linearSweep tb' x (toCoupledSegments box a.segments) (toCoupledSegments box' b.segments) := fun box box' x =>
    linearSweep_tie tb tb' x (ha.sublist List.filter_sublist) (hb.sublist List.filter_sublist)
  unfold linearIntersection
  simp only [h]

theorem linearSymmetricDifference_tie : linearSymmetricDifference tb a b = linearSymmetricDifference tb' a b := by
  unfold linearSymmetricDifference
  simp only [linearSweep_tie tb tb' none ha hb]

theorem linearUnion_tie : linearUnion tb a b = linearUnion tb' a b := by
  unfold linearUnion
  simp only [linearSweep_tie tb tb' none ha hb]

theorem linearCompleteIntersection_tie : linearCompleteIntersection tb a b = linearCompleteIntersection tb' a b := by
  have h : ∀ box box' x, linearSweepAll tb x (toIntersectingSegments box a.segments) (toIntersectingSegments box' b.segments) =
      linearSweepAll tb' x (toIntersectingSegments box a.segments) (toIntersectingSegments box' b.segments) := fun box box' x =>
    linearSweepAll_tie tb tb' x (ha.sublist List.filter_sublist) (hb.sublist List.filter_sublist)
  unfold linearCompleteIntersection
  simp only [h]

end linear

section mixed

variable (o : Orient) {a : LinearOperand} {b : ShapedOperand} (ha : NoOverlap a.segments) (hb : ValidPolygons b.polygons)
  (tb tb' : TieBreak)

include ha hb

theorem mixedDifference_tie : mixedDifference o tb a b = mixedDifference o tb' a b := by
  have h : ∀ box x, mixedSweep selectOutside tb x a.segments (toCoupledPolygons o box b.polygons) =
      mixedSweep selectOutside tb' x a.segments (toCoupledPolygons o box b.polygons) := fun box x =>
    mixedSweep_tie _ tb tb' x ha (hb.sublist (toCoupledPolygons_sub o _ _))
  unfold mixedDifference
  simp only [h]

theorem mixed_tie (sel : Bool → MixedData → Bool) (box box' : Box) (x : Option ℚ) :
    mixedSweep sel tb x (toIntersectingSegments box a.segments) (toIntersectingPolygons o box' b.polygons) =
      mixedSweep sel tb' x (toIntersectingSegments box a.segments) (toIntersectingPolygons o box' b.polygons) :=
  mixedSweep_tie _ tb tb' x (ha.sublist List.filter_sublist) (hb.sublist (toIntersectingPolygons_sub o _ _))

theorem mixedIntersection_tie : mixedIntersection o tb a b = mixedIntersection o tb' a b := by
  unfold mixedIntersection
  simp only [mixed_tie o ha hb tb tb']

theorem mixedCompleteIntersection_tie : mixedCompleteIntersection o tb a b = mixedCompleteIntersection o tb' a b := by
  unfold mixedCompleteIntersection
  simp only [mixed_tie o ha hb tb tb']

theorem mixedUnion_tie : mixedUnion o tb a b = mixedUnion o tb' a b := by
  have h : ∀ box box' x, mixedSweep selectOutside tb x (splitIntersectingSegments box a.segments).2
      (toIntersectingPolygons o box' b.polygons) = mixedSweep selectOutside tb' x (splitIntersectingSegments box a.segments).2
      (toIntersectingPolygons o box' b.polygons) := fun box box' x => mixed_tie o ha hb tb tb' _ box box' x
  unfold mixedUnion
  simp only [splitIntersectingSegments] at h ⊢
  simp only [h]

end mixed

section shaped

variable (o : Orient) {a b : ShapedOperand} (ha : ValidPolygons a.polygons) (hb : ValidPolygons b.polygons)
  (tb tb' : TieBreak)

include ha hb

theorem holeyIntersection_tie : holeyIntersection o tb a b = holeyIntersection o tb' a b := by
  have h : ∀ box box' x, holeySweep intersectionRule tb x (toCoupledPolygons o box a.polygons) (toCoupledPolygons o box' b.polygons) =
      holeySweep intersectionRule tb' x (toCoupledPolygons o box a.polygons) (toCoupledPolygons o box' b.polygons) :=
    fun box box' x => holeySweep_tie _ tb tb' x (ha.sublist (toCoupledPolygons_sub o _ _)) (hb.sublist (toCoupledPolygons_sub o _ _))
  unfold holeyIntersection
  simp only [h]

theorem holeyCompleteIntersection_tie : holeyCompleteIntersection o tb a b = holeyCompleteIntersection o tb' a b := by
  have h : ∀ box box' x, holeySweep intersectionRule tb x (toIntersectingPolygons o box a.polygons)
      (toIntersectingPolygons o box' b.polygons) =
      holeySweep intersectionRule tb' x (toIntersectingPolygons o box a.polygons) (toIntersectingPolygons o box' b.polygons) :=
    fun box box' x => holeySweep_tie _ tb tb' x (ha.sublist (toIntersectingPolygons_sub o _ _))
      (hb.sublist (toIntersectingPolygons_sub o _ _))
  unfold holeyCompleteIntersection
  simp only [h]

theorem holeyDifference_tie : holeyDifference o tb a b = holeyDifference o tb' a b := by
  have h : ∀ box x, holeySweep differenceRule tb x a.polygons (toCoupledPolygons o box b.polygons) =
      holeySweep differenceRule tb' x a.polygons (toCoupledPolygons o box b.polygons) :=
    fun box x => holeySweep_tie _ tb tb' x ha (hb.sublist (toCoupledPolygons_sub o _ _))
  unfold holeyDifference
  simp only [h]

theorem holeySymmetricDifference_tie : holeySymmetricDifference tb a b = holeySymmetricDifference tb' a b := by
  unfold holeySymmetricDifference
  simp only [holeySweep_tie symmetricDifferenceRule tb tb' none ha hb]

theorem holeyUnion_tie : holeyUnion tb a b = holeyUnion tb' a b := by
  unfold holeyUnion
  simp only [holeySweep_tie unionRule tb tb' none ha hb]

end shaped

end Clipping
