import Verif.Lemmas.Shaped.Normal
import Verif.Properties.Regions
import Verif.Properties.Complete
import Verif.Properties.PolygonsExact

/-!
# C48: results are in normal form

Contours start with their least vertex and have no vertex on the line through its neighbours, polygons are sorted by the first vertices
of their borders, holes by their first vertices (`Spec/Normal.lean`).  A difference may be the first operand as it is given,
and unions and symmetric differences of operands with disjoint boxes have the polygons as they are given, but sorted.
-/

namespace Clipping

/-! ## Regions -/

/-- **C48** `intersect_regions` -/
theorem intersectRegions_normal {o : Orient} (ok : OrientOk o) (tb : TieBreak) {a b : Contour} (va : SimpleContour a) (vb : SimpleContour b) :
    ∃ g, intersectRegions o tb a b = .ok g ∧ NormalPolygons g.polygons := by
  obtain ⟨g, e, -⟩ := intersectRegions_exact ok tb va vb
  exact ⟨g, e, holelessIntersection_normal (validRegions_single va).polygons (validRegions_single vb).polygons (by simp) (by simp) tb e⟩

/-- **C48** `intersect_region_with_multiregion` -/
theorem intersectRegionWithMultiregion_normal {o : Orient} (ok : OrientOk o) (tb : TieBreak) {a : Contour} {b : List Contour} (va : SimpleContour a) (nb : b ≠ []) (vb : ValidRegions b) :
    ∃ g, intersectRegionWithMultiregion o tb a b = .ok g ∧ NormalPolygons g.polygons := by
  obtain ⟨g, e, -⟩ := intersectRegionWithMultiregion_exact ok tb va nb vb
  exact ⟨g, e, holelessIntersection_normal (validRegions_single va).polygons vb.polygons (by simp) nb tb e⟩

/-- **C48** `intersect_multiregions` -/
theorem intersectMultiregions_normal {o : Orient} (ok : OrientOk o) (tb : TieBreak) {a b : List Contour} (na : a ≠ []) (va : ValidRegions a) (nb : b ≠ []) (vb : ValidRegions b) :
    ∃ g, intersectMultiregions o tb a b = .ok g ∧ NormalPolygons g.polygons := by
  obtain ⟨g, e, -⟩ := intersectMultiregions_exact ok tb na va nb vb
  exact ⟨g, e, holelessIntersection_normal va.polygons vb.polygons na nb tb e⟩

/-- **C48** `complete_intersect_regions` -/
theorem completeIntersectRegions_normal {o : Orient} (ok : OrientOk o) (tb : TieBreak) {a b : Contour} (va : SimpleContour a) (vb : SimpleContour b) :
    ∃ g, completeIntersectRegions o tb a b = .ok g ∧ NormalPolygons g.shapedPolygons := by
  obtain ⟨g, e, -⟩ := completeIntersectRegions_exact ok tb va vb
  exact ⟨g, e, holelessCompleteIntersection_normal (validRegions_single va).polygons (validRegions_single vb).polygons (by simp) (by simp) ok tb e⟩

/-- **C48** `complete_intersect_region_with_multiregion` -/
theorem completeIntersectRegionWithMultiregion_normal {o : Orient} (ok : OrientOk o) (tb : TieBreak) {a : Contour} {b : List Contour} (va : SimpleContour a) (nb : b ≠ []) (vb : ValidRegions b) :
    ∃ g, completeIntersectRegionWithMultiregion o tb a b = .ok g ∧ NormalPolygons g.shapedPolygons := by
  obtain ⟨g, e, -⟩ := completeIntersectRegionWithMultiregion_exact ok tb va nb vb
  exact ⟨g, e, holelessCompleteIntersection_normal (validRegions_single va).polygons vb.polygons (by simp) nb ok tb e⟩

/-- **C48** `complete_intersect_multiregions` -/
theorem completeIntersectMultiregions_normal {o : Orient} (ok : OrientOk o) (tb : TieBreak) {a b : List Contour} (na : a ≠ []) (va : ValidRegions a) (nb : b ≠ []) (vb : ValidRegions b) :
    ∃ g, completeIntersectMultiregions o tb a b = .ok g ∧ NormalPolygons g.shapedPolygons := by
  obtain ⟨g, e, -⟩ := completeIntersectMultiregions_exact ok tb na va nb vb
  exact ⟨g, e, holelessCompleteIntersection_normal va.polygons vb.polygons na nb ok tb e⟩

/-! ## Polygons -/

/-- **C48** `intersect_polygons` -/
theorem intersectPolygons_normal {o : Orient} (ok : OrientOk o) (tb : TieBreak) {a b : Polygon} (va : ValidPolygon a) (vb : ValidPolygon b) :
    ∃ g, intersectPolygons o tb a b = .ok g ∧ NormalPolygons g.polygons := by
  obtain ⟨g, e, -⟩ := intersectPolygons_outlines ok tb va vb
  exact ⟨g, e, holeyIntersection_normal (polygonOperand_ok va) (polygonOperand_ok vb) tb e⟩

/-- **C48** `intersect_polygon_with_multipolygon` -/
theorem intersectPolygonWithMultipolygon_normal {o : Orient} (ok : OrientOk o) (tb : TieBreak) {a : Polygon} {b : List Polygon} (va : ValidPolygon a) (nb : b ≠ []) (vb : ValidPolygons b) :
    ∃ g, intersectPolygonWithMultipolygon o tb a b = .ok g ∧ NormalPolygons g.polygons := by
  obtain ⟨g, e, -⟩ := intersectPolygonWithMultipolygon_outlines ok tb va nb vb
  exact ⟨g, e, holeyIntersection_normal (polygonOperand_ok va) (multipolygonOperand_ok nb vb) tb e⟩

/-- **C48** `intersect_multipolygons` -/
theorem intersectMultipolygons_normal {o : Orient} (ok : OrientOk o) (tb : TieBreak) {a b : List Polygon} (na : a ≠ []) (va : ValidPolygons a) (nb : b ≠ []) (vb : ValidPolygons b) :
    ∃ g, intersectMultipolygons o tb a b = .ok g ∧ NormalPolygons g.polygons := by
  obtain ⟨g, e, -⟩ := intersectMultipolygons_outlines ok tb na va nb vb
  exact ⟨g, e, holeyIntersection_normal (multipolygonOperand_ok na va) (multipolygonOperand_ok nb vb) tb e⟩

/-- **C48** `complete_intersect_polygons` -/
theorem completeIntersectPolygons_normal {o : Orient} (ok : OrientOk o) (tb : TieBreak) {a b : Polygon} (va : ValidPolygon a) (vb : ValidPolygon b) :
    ∃ g, completeIntersectPolygons o tb a b = .ok g ∧ NormalPolygons g.shapedPolygons := by
  obtain ⟨g, e, -⟩ := completeIntersectPolygons_parts ok tb va vb
  exact ⟨g, e, holeyCompleteIntersection_normal (polygonOperand_ok va) (polygonOperand_ok vb) tb e⟩

/-- **C48** `complete_intersect_polygon_with_multipolygon` -/
theorem completeIntersectPolygonWithMultipolygon_normal {o : Orient} (ok : OrientOk o) (tb : TieBreak) {a : Polygon} {b : List Polygon} (va : ValidPolygon a) (nb : b ≠ []) (vb : ValidPolygons b) :
    ∃ g, completeIntersectPolygonWithMultipolygon o tb a b = .ok g ∧ NormalPolygons g.shapedPolygons := by
  obtain ⟨g, e, -⟩ := completeIntersectPolygonWithMultipolygon_parts ok tb va nb vb
  exact ⟨g, e, holeyCompleteIntersection_normal (polygonOperand_ok va) (multipolygonOperand_ok nb vb) tb e⟩

/-- **C48** `complete_intersect_multipolygons` -/
theorem completeIntersectMultipolygons_normal {o : Orient} (ok : OrientOk o) (tb : TieBreak) {a b : List Polygon} (na : a ≠ []) (va : ValidPolygons a) (nb : b ≠ []) (vb : ValidPolygons b) :
    ∃ g, completeIntersectMultipolygons o tb a b = .ok g ∧ NormalPolygons g.shapedPolygons := by
  obtain ⟨g, e, -⟩ := completeIntersectMultipolygons_parts ok tb na va nb vb
  exact ⟨g, e, holeyCompleteIntersection_normal (multipolygonOperand_ok na va) (multipolygonOperand_ok nb vb) tb e⟩

/-- **C48** `subtract_polygons` -/
theorem subtractPolygons_normal {o : Orient} (ok : OrientOk o) (tb : TieBreak) {a b : Polygon} (va : ValidPolygon a) (vb : ValidPolygon b) :
    ∃ g, subtractPolygons o tb a b = .ok g ∧ (g = .polygon a ∨ NormalPolygons g.polygons) := by
  obtain ⟨g, e, -⟩ := subtractPolygons_outlines ok tb va vb
  exact ⟨g, e, holeyDifference_normal (polygonOperand_ok va) (polygonOperand_ok vb) tb e⟩

/-- **C48** `subtract_multipolygon_from_polygon` -/
theorem subtractMultipolygonFromPolygon_normal {o : Orient} (ok : OrientOk o) (tb : TieBreak) {a : Polygon} {b : List Polygon} (va : ValidPolygon a) (nb : b ≠ []) (vb : ValidPolygons b) :
    ∃ g, subtractMultipolygonFromPolygon o tb a b = .ok g ∧ (g = .polygon a ∨ NormalPolygons g.polygons) := by
  obtain ⟨g, e, -⟩ := subtractMultipolygonFromPolygon_outlines ok tb va nb vb
  exact ⟨g, e, holeyDifference_normal (polygonOperand_ok va) (multipolygonOperand_ok nb vb) tb e⟩

/-- **C48** `subtract_polygon_from_multipolygon` -/
theorem subtractPolygonFromMultipolygon_normal {o : Orient} (ok : OrientOk o) (tb : TieBreak) {a : List Polygon} {b : Polygon} (na : a ≠ []) (va : ValidPolygons a) (vb : ValidPolygon b) :
    ∃ g, subtractPolygonFromMultipolygon o tb a b = .ok g ∧ (g = .multipolygon a ∨ NormalPolygons g.polygons) := by
  obtain ⟨g, e, -⟩ := subtractPolygonFromMultipolygon_outlines ok tb na va vb
  exact ⟨g, e, holeyDifference_normal (multipolygonOperand_ok na va) (polygonOperand_ok vb) tb e⟩

/-- **C48** `subtract_multipolygons` -/
theorem subtractMultipolygons_normal {o : Orient} (ok : OrientOk o) (tb : TieBreak) {a b : List Polygon} (na : a ≠ []) (va : ValidPolygons a) (nb : b ≠ []) (vb : ValidPolygons b) :
    ∃ g, subtractMultipolygons o tb a b = .ok g ∧ (g = .multipolygon a ∨ NormalPolygons g.polygons) := by
  obtain ⟨g, e, -⟩ := subtractMultipolygons_outlines ok tb na va nb vb
  exact ⟨g, e, holeyDifference_normal (multipolygonOperand_ok na va) (multipolygonOperand_ok nb vb) tb e⟩

/-- **C48** `symmetric_subtract_polygons` -/
theorem symmetricSubtractPolygons_normal (tb : TieBreak) {a b : Polygon} (va : ValidPolygon a) (vb : ValidPolygon b) :
    ∃ g, symmetricSubtractPolygons tb a b = .ok g ∧ SortedBorders g.polygons ∧ (g.polygons.Perm ([a] ++ [b]) ∨ NormalPolygons g.polygons) := by
  obtain ⟨g, e, -⟩ := symmetricSubtractPolygons_outlines tb va vb
  exact ⟨g, e, holeySymmetricDifference_normal (polygonOperand_ok va) (polygonOperand_ok vb) tb e⟩

/-- **C48** `symmetric_subtract_multipolygon_from_polygon` -/
theorem symmetricSubtractMultipolygonFromPolygon_normal (tb : TieBreak) {a : Polygon} {b : List Polygon} (va : ValidPolygon a) (nb : b ≠ []) (vb : ValidPolygons b) :
    ∃ g, symmetricSubtractMultipolygonFromPolygon tb a b = .ok g ∧ SortedBorders g.polygons ∧ (g.polygons.Perm ([a] ++ b) ∨ NormalPolygons g.polygons) := by
  obtain ⟨g, e, -⟩ := symmetricSubtractMultipolygonFromPolygon_outlines tb va nb vb
  exact ⟨g, e, holeySymmetricDifference_normal (polygonOperand_ok va) (multipolygonOperand_ok nb vb) tb e⟩

/-- **C48** `symmetric_subtract_multipolygons` -/
theorem symmetricSubtractMultipolygons_normal (tb : TieBreak) {a b : List Polygon} (na : a ≠ []) (va : ValidPolygons a) (nb : b ≠ []) (vb : ValidPolygons b) :
    ∃ g, symmetricSubtractMultipolygons tb a b = .ok g ∧ SortedBorders g.polygons ∧ (g.polygons.Perm (a ++ b) ∨ NormalPolygons g.polygons) := by
  obtain ⟨g, e, -⟩ := symmetricSubtractMultipolygons_outlines tb na va nb vb
  exact ⟨g, e, holeySymmetricDifference_normal (multipolygonOperand_ok na va) (multipolygonOperand_ok nb vb) tb e⟩

/-- **C48** `unite_polygons` -/
theorem unitePolygons_normal (tb : TieBreak) {a b : Polygon} (va : ValidPolygon a) (vb : ValidPolygon b) :
    ∃ g, unitePolygons tb a b = .ok g ∧ SortedBorders g.polygons ∧ (g.polygons.Perm ([a] ++ [b]) ∨ NormalPolygons g.polygons) := by
  obtain ⟨g, e, -⟩ := unitePolygons_outlines tb va vb
  exact ⟨g, e, holeyUnion_normal (polygonOperand_ok va) (polygonOperand_ok vb) tb e⟩

/-- **C48** `unite_polygon_with_multipolygon` -/
theorem unitePolygonWithMultipolygon_normal (tb : TieBreak) {a : Polygon} {b : List Polygon} (va : ValidPolygon a) (nb : b ≠ []) (vb : ValidPolygons b) :
    ∃ g, unitePolygonWithMultipolygon tb a b = .ok g ∧ SortedBorders g.polygons ∧ (g.polygons.Perm ([a] ++ b) ∨ NormalPolygons g.polygons) := by
  obtain ⟨g, e, -⟩ := unitePolygonWithMultipolygon_outlines tb va nb vb
  exact ⟨g, e, holeyUnion_normal (polygonOperand_ok va) (multipolygonOperand_ok nb vb) tb e⟩

/-- **C48** `unite_multipolygons` -/
theorem uniteMultipolygons_normal (tb : TieBreak) {a b : List Polygon} (na : a ≠ []) (va : ValidPolygons a) (nb : b ≠ []) (vb : ValidPolygons b) :
    ∃ g, uniteMultipolygons tb a b = .ok g ∧ SortedBorders g.polygons ∧ (g.polygons.Perm (a ++ b) ∨ NormalPolygons g.polygons) := by
  obtain ⟨g, e, -⟩ := uniteMultipolygons_outlines tb na va nb vb
  exact ⟨g, e, holeyUnion_normal (multipolygonOperand_ok na va) (multipolygonOperand_ok nb vb) tb e⟩

/-! ## Examples -/

/-- The frames of the examples of `Properties/Shaped.lean` meet the hypotheses. -/
example : ∃ g, uniteMultipolygons TieBreak.id exFrame exFrame' = .ok g ∧ SortedBorders g.polygons ∧
    (g.polygons.Perm (exFrame ++ exFrame') ∨ NormalPolygons g.polygons) :=
  uniteMultipolygons_normal _ (by simp [exFrame]) exFrame_valid (by simp [exFrame']) exFrame'_valid

example : ∃ g, intersectMultipolygons (Classical.choose exists_orient) TieBreak.id exFrame exFrame' = .ok g ∧
    NormalPolygons g.polygons :=
  intersectMultipolygons_normal (Classical.choose_spec exists_orient) _ (by simp [exFrame]) exFrame_valid (by simp [exFrame'])
    exFrame'_valid

/-- Two squares side by side, the right one first: the result is sorted. -/
example : unitePolygons TieBreak.id ⟨squareContour 5 0 2, []⟩ ⟨squareContour 0 0 2, []⟩ =
    .ok (.multipolygon [⟨squareContour 0 0 2, []⟩, ⟨squareContour 5 0 2, []⟩]) := by decide +kernel

end Clipping
