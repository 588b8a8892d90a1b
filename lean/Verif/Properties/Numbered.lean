import Verif.Lemmas.Shaped.Numbered
import Verif.Properties.Complete
import Verif.Properties.PolygonsExact

/-!
# C49: end points are numbered in the order of their points

The operations on polygons give numbers to the end points of the processed events and trust that the numbers are defined,
do not exceed that of the last event of the result, are equal exactly for equal points, and that all positions
are reset after a contour.  `Model/Numbered.lean` has the code with these numbers and all assertions on them, and with the first event
processed before the loop.
-/

namespace Clipping

open Sweep

/-- **C49** After the sweep each processed event has a number, and numbers are in the order of the starts of events. -/
theorem endpoints_numbered {rule : ShapedRule} {tb : TieBreak} {xmax : Option ℚ} {P Q : List Polygon} (hP : ValidPolygons P)
    (hQ : ValidPolygons Q) {h : Heap ShapedData} {events : List Ev} (e : holeySweep rule tb xmax P Q = .ok (h, events)) :
    (∀ e ∈ events, ∃ i, startId h events e = some i) ∧
    ∀ e f i j, startId h events e = some i → startId h events f = some j →
      (i ≤ j ↔ h.evStart e ≤ h.evStart f) ∧ (i = j ↔ h.evStart e = h.evStart f) := by
  obtain ⟨h1, h2⟩ := startId_spec h (shapedSweep_ordered hP.isBoundary.noOverlap hQ.isBoundary.noOverlap e)
  refine ⟨h1, fun e f i j hi hj => ⟨h2 e f i j hi hj, ?_⟩⟩
  have a := h2 e f i j hi hj
  have b := h2 f e j i hj hi
  exact ⟨fun hij => le_antisymm (a.1 hij.le) (b.1 hij.ge), fun hs => le_antisymm (a.2 hs.le) (b.2 hs.ge)⟩

/-- The sweep of two frames processes 56 events at 21 points. -/
example : ValidPolygons exFrame ∧ ValidPolygons exFrame' ∧
    ((holeySweep unionRule TieBreak.id none exFrame exFrame').toOption.map fun (h, events) =>
      startIds h events) = some [0, 0, 1, 1, 2, 2, 3, 3, 4, 4, 5, 5, 5, 5, 6, 6, 6, 6, 7, 7, 8, 8, 9, 9, 9, 9, 10, 10, 10, 10,
        11, 11, 11, 11, 12, 12, 13, 13, 14, 14, 14, 14, 15, 15, 15, 15, 16, 16, 17, 17, 18, 18, 19, 19, 20, 20] := by
  refine ⟨exFrame_valid, exFrame'_valid, by decide +kernel⟩

/-- **C49** `complete_intersect_polygons` -/
theorem completeIntersectPolygons_numbered {o : Orient} (ok : OrientOk o) (tb : TieBreak) {a b : Polygon} (va : ValidPolygon a) (vb : ValidPolygon b) :
    ∃ g, holeyCompleteIntersectionNumbered o tb (polygonOperand a) (polygonOperand b) = .ok g ∧ completeIntersectPolygons o tb a b = .ok g := by
  obtain ⟨g, e, -⟩ := completeIntersectPolygons_parts ok tb va vb
  exact ⟨g, (holeyCompleteIntersectionNumbered_eq (polygonOperand_ok va) (polygonOperand_ok vb) tb).trans e, e⟩

/-- **C49** `intersect_polygons` -/
theorem intersectPolygons_numbered {o : Orient} (ok : OrientOk o) (tb : TieBreak) {a b : Polygon} (va : ValidPolygon a) (vb : ValidPolygon b) :
    ∃ g, holeyIntersectionNumbered o tb (polygonOperand a) (polygonOperand b) = .ok g ∧ intersectPolygons o tb a b = .ok g := by
  obtain ⟨g, e, -⟩ := intersectPolygons_outlines ok tb va vb
  exact ⟨g, (holeyIntersectionNumbered_eq (polygonOperand_ok va) (polygonOperand_ok vb) tb).trans e, e⟩

/-- **C49** `subtract_polygons` -/
theorem subtractPolygons_numbered {o : Orient} (ok : OrientOk o) (tb : TieBreak) {a b : Polygon} (va : ValidPolygon a) (vb : ValidPolygon b) :
    ∃ g, holeyDifferenceNumbered o tb (polygonOperand a) (polygonOperand b) = .ok g ∧ subtractPolygons o tb a b = .ok g := by
  obtain ⟨g, e, -⟩ := subtractPolygons_outlines ok tb va vb
  exact ⟨g, (holeyDifferenceNumbered_eq (polygonOperand_ok va) (polygonOperand_ok vb) tb).trans e, e⟩

/-- **C49** `symmetric_subtract_polygons` -/
theorem symmetricSubtractPolygons_numbered (tb : TieBreak) {a b : Polygon} (va : ValidPolygon a) (vb : ValidPolygon b) :
    ∃ g, holeySymmetricDifferenceNumbered tb (polygonOperand a) (polygonOperand b) = .ok g ∧ symmetricSubtractPolygons tb a b = .ok g := by
  obtain ⟨g, e, -⟩ := symmetricSubtractPolygons_outlines tb va vb
  exact ⟨g, (holeySymmetricDifferenceNumbered_eq (polygonOperand_ok va) (polygonOperand_ok vb) tb).trans e, e⟩

/-- **C49** `unite_polygons` -/
theorem unitePolygons_numbered (tb : TieBreak) {a b : Polygon} (va : ValidPolygon a) (vb : ValidPolygon b) :
    ∃ g, holeyUnionNumbered tb (polygonOperand a) (polygonOperand b) = .ok g ∧ unitePolygons tb a b = .ok g := by
  obtain ⟨g, e, -⟩ := unitePolygons_outlines tb va vb
  exact ⟨g, (holeyUnionNumbered_eq (polygonOperand_ok va) (polygonOperand_ok vb) tb).trans e, e⟩

/-- **C49** `complete_intersect_polygon_with_multipolygon` -/
theorem completeIntersectPolygonWithMultipolygon_numbered {o : Orient} (ok : OrientOk o) (tb : TieBreak) {a : Polygon} {b : List Polygon} (va : ValidPolygon a) (nb : b ≠ []) (vb : ValidPolygons b) :
    ∃ g, holeyCompleteIntersectionNumbered o tb (polygonOperand a) (multipolygonOperand b) = .ok g ∧ completeIntersectPolygonWithMultipolygon o tb a b = .ok g := by
  obtain ⟨g, e, -⟩ := completeIntersectPolygonWithMultipolygon_parts ok tb va nb vb
  exact ⟨g, (holeyCompleteIntersectionNumbered_eq (polygonOperand_ok va) (multipolygonOperand_ok nb vb) tb).trans e, e⟩

/-- **C49** `intersect_polygon_with_multipolygon` -/
theorem intersectPolygonWithMultipolygon_numbered {o : Orient} (ok : OrientOk o) (tb : TieBreak) {a : Polygon} {b : List Polygon} (va : ValidPolygon a) (nb : b ≠ []) (vb : ValidPolygons b) :
    ∃ g, holeyIntersectionNumbered o tb (polygonOperand a) (multipolygonOperand b) = .ok g ∧ intersectPolygonWithMultipolygon o tb a b = .ok g := by
  obtain ⟨g, e, -⟩ := intersectPolygonWithMultipolygon_outlines ok tb va nb vb
  exact ⟨g, (holeyIntersectionNumbered_eq (polygonOperand_ok va) (multipolygonOperand_ok nb vb) tb).trans e, e⟩

/-- **C49** `subtract_multipolygon_from_polygon` -/
theorem subtractMultipolygonFromPolygon_numbered {o : Orient} (ok : OrientOk o) (tb : TieBreak) {a : Polygon} {b : List Polygon} (va : ValidPolygon a) (nb : b ≠ []) (vb : ValidPolygons b) :
    ∃ g, holeyDifferenceNumbered o tb (polygonOperand a) (multipolygonOperand b) = .ok g ∧ subtractMultipolygonFromPolygon o tb a b = .ok g := by
  obtain ⟨g, e, -⟩ := subtractMultipolygonFromPolygon_outlines ok tb va nb vb
  exact ⟨g, (holeyDifferenceNumbered_eq (polygonOperand_ok va) (multipolygonOperand_ok nb vb) tb).trans e, e⟩

/-- **C49** `subtract_polygon_from_multipolygon` -/
theorem subtractPolygonFromMultipolygon_numbered {o : Orient} (ok : OrientOk o) (tb : TieBreak) {a : List Polygon} {b : Polygon} (na : a ≠ []) (va : ValidPolygons a) (vb : ValidPolygon b) :
    ∃ g, holeyDifferenceNumbered o tb (multipolygonOperand a) (polygonOperand b) = .ok g ∧ subtractPolygonFromMultipolygon o tb a b = .ok g := by
  obtain ⟨g, e, -⟩ := subtractPolygonFromMultipolygon_outlines ok tb na va vb
  exact ⟨g, (holeyDifferenceNumbered_eq (multipolygonOperand_ok na va) (polygonOperand_ok vb) tb).trans e, e⟩

/-- **C49** `symmetric_subtract_multipolygon_from_polygon` -/
theorem symmetricSubtractMultipolygonFromPolygon_numbered (tb : TieBreak) {a : Polygon} {b : List Polygon} (va : ValidPolygon a) (nb : b ≠ []) (vb : ValidPolygons b) :
    ∃ g, holeySymmetricDifferenceNumbered tb (polygonOperand a) (multipolygonOperand b) = .ok g ∧ symmetricSubtractMultipolygonFromPolygon tb a b = .ok g := by
  obtain ⟨g, e, -⟩ := symmetricSubtractMultipolygonFromPolygon_outlines tb va nb vb
  exact ⟨g, (holeySymmetricDifferenceNumbered_eq (polygonOperand_ok va) (multipolygonOperand_ok nb vb) tb).trans e, e⟩

/-- **C49** `unite_polygon_with_multipolygon` -/
theorem unitePolygonWithMultipolygon_numbered (tb : TieBreak) {a : Polygon} {b : List Polygon} (va : ValidPolygon a) (nb : b ≠ []) (vb : ValidPolygons b) :
    ∃ g, holeyUnionNumbered tb (polygonOperand a) (multipolygonOperand b) = .ok g ∧ unitePolygonWithMultipolygon tb a b = .ok g := by
  obtain ⟨g, e, -⟩ := unitePolygonWithMultipolygon_outlines tb va nb vb
  exact ⟨g, (holeyUnionNumbered_eq (polygonOperand_ok va) (multipolygonOperand_ok nb vb) tb).trans e, e⟩

/-- **C49** `complete_intersect_multipolygons` -/
theorem completeIntersectMultipolygons_numbered {o : Orient} (ok : OrientOk o) (tb : TieBreak) {a b : List Polygon} (na : a ≠ []) (va : ValidPolygons a) (nb : b ≠ []) (vb : ValidPolygons b) :
    ∃ g, holeyCompleteIntersectionNumbered o tb (multipolygonOperand a) (multipolygonOperand b) = .ok g ∧ completeIntersectMultipolygons o tb a b = .ok g := by
  obtain ⟨g, e, -⟩ := completeIntersectMultipolygons_parts ok tb na va nb vb
  exact ⟨g, (holeyCompleteIntersectionNumbered_eq (multipolygonOperand_ok na va) (multipolygonOperand_ok nb vb) tb).trans e, e⟩

/-- **C49** `intersect_multipolygons` -/
theorem intersectMultipolygons_numbered {o : Orient} (ok : OrientOk o) (tb : TieBreak) {a b : List Polygon} (na : a ≠ []) (va : ValidPolygons a) (nb : b ≠ []) (vb : ValidPolygons b) :
    ∃ g, holeyIntersectionNumbered o tb (multipolygonOperand a) (multipolygonOperand b) = .ok g ∧ intersectMultipolygons o tb a b = .ok g := by
  obtain ⟨g, e, -⟩ := intersectMultipolygons_outlines ok tb na va nb vb
  exact ⟨g, (holeyIntersectionNumbered_eq (multipolygonOperand_ok na va) (multipolygonOperand_ok nb vb) tb).trans e, e⟩

/-- **C49** `subtract_multipolygons` -/
theorem subtractMultipolygons_numbered {o : Orient} (ok : OrientOk o) (tb : TieBreak) {a b : List Polygon} (na : a ≠ []) (va : ValidPolygons a) (nb : b ≠ []) (vb : ValidPolygons b) :
    ∃ g, holeyDifferenceNumbered o tb (multipolygonOperand a) (multipolygonOperand b) = .ok g ∧ subtractMultipolygons o tb a b = .ok g := by
  obtain ⟨g, e, -⟩ := subtractMultipolygons_outlines ok tb na va nb vb
  exact ⟨g, (holeyDifferenceNumbered_eq (multipolygonOperand_ok na va) (multipolygonOperand_ok nb vb) tb).trans e, e⟩

/-- **C49** `symmetric_subtract_multipolygons` -/
theorem symmetricSubtractMultipolygons_numbered (tb : TieBreak) {a b : List Polygon} (na : a ≠ []) (va : ValidPolygons a) (nb : b ≠ []) (vb : ValidPolygons b) :
    ∃ g, holeySymmetricDifferenceNumbered tb (multipolygonOperand a) (multipolygonOperand b) = .ok g ∧ symmetricSubtractMultipolygons tb a b = .ok g := by
  obtain ⟨g, e, -⟩ := symmetricSubtractMultipolygons_outlines tb na va nb vb
  exact ⟨g, (holeySymmetricDifferenceNumbered_eq (multipolygonOperand_ok na va) (multipolygonOperand_ok nb vb) tb).trans e, e⟩

/-- **C49** `unite_multipolygons` -/
theorem uniteMultipolygons_numbered (tb : TieBreak) {a b : List Polygon} (na : a ≠ []) (va : ValidPolygons a) (nb : b ≠ []) (vb : ValidPolygons b) :
    ∃ g, holeyUnionNumbered tb (multipolygonOperand a) (multipolygonOperand b) = .ok g ∧ uniteMultipolygons tb a b = .ok g := by
  obtain ⟨g, e, -⟩ := uniteMultipolygons_outlines tb na va nb vb
  exact ⟨g, (holeyUnionNumbered_eq (multipolygonOperand_ok na va) (multipolygonOperand_ok nb vb) tb).trans e, e⟩

/-! ## Examples -/

/-- The frames of the examples of `Properties/Shaped.lean` meet the hypotheses. -/
example : ∃ g, holeyUnionNumbered TieBreak.id (multipolygonOperand exFrame) (multipolygonOperand exFrame') = .ok g ∧
    uniteMultipolygons TieBreak.id exFrame exFrame' = .ok g :=
  uniteMultipolygons_numbered _ (by simp [exFrame]) exFrame_valid (by simp [exFrame']) exFrame'_valid

example : ∃ g, holeyIntersectionNumbered (Classical.choose exists_orient) TieBreak.id (multipolygonOperand exFrame)
      (multipolygonOperand exFrame') = .ok g ∧
    intersectMultipolygons (Classical.choose exists_orient) TieBreak.id exFrame exFrame' = .ok g :=
  intersectMultipolygons_numbered (Classical.choose_spec exists_orient) _ (by simp [exFrame]) exFrame_valid (by simp [exFrame'])
    exFrame'_valid

end Clipping
