import Verif.Lemmas.TreeSweep.ShapedOperations
import Verif.Lemmas.TreeSweep.Sorting
import Verif.Properties.Numbered
import Verif.Properties.Regions
import Verif.Properties.TreeMixed
import Verif.Properties.BoundingShaped

/-!
# C78: how the sweep line is balanced and events are sorted has no influence on polygons

The model of C77, in which the tree of the sweep line is balanced in any way, in which sorting does anything where the comparison of events
is no order, and in which indices can be out of range, returns the same as the model with a sorted list, and does not fail.
-/

namespace Clipping

open TreeSweep

section
variable {o : Orient} (B : Balancing) (S : EventSort) (tb : TieBreak)

/-- **C78** Operations on multipolygons -/
theorem multipolygons_any_tree (ok : OrientOk o) {a b : List Polygon} (na : a ≠ []) (va : ValidPolygons a) (nb : b ≠ [])
    (vb : ValidPolygons b) :
    (∃ g, treeHoleyIntersection o B S tb (multipolygonOperand a) (multipolygonOperand b) = .ok g ∧ intersectMultipolygons o tb a b = .ok g) ∧
    (∃ g, treeHoleyCompleteIntersection o B S tb (multipolygonOperand a) (multipolygonOperand b) = .ok g ∧
      completeIntersectMultipolygons o tb a b = .ok g) ∧
    (∃ g, treeHoleyDifference o B S tb (multipolygonOperand a) (multipolygonOperand b) = .ok g ∧ subtractMultipolygons o tb a b = .ok g) ∧
    (∃ g, treeHoleySymmetricDifference B S tb (multipolygonOperand a) (multipolygonOperand b) = .ok g ∧
      symmetricSubtractMultipolygons tb a b = .ok g) ∧
    (∃ g, treeHoleyUnion B S tb (multipolygonOperand a) (multipolygonOperand b) = .ok g ∧ uniteMultipolygons tb a b = .ok g) := by
  have ha := multipolygonOperand_ok na va
  have hb := multipolygonOperand_ok nb vb
  obtain ⟨g₁, -, e₁⟩ := intersectMultipolygons_numbered ok tb na va nb vb
  obtain ⟨g₂, -, e₂⟩ := completeIntersectMultipolygons_numbered ok tb na va nb vb
  obtain ⟨g₃, -, e₃⟩ := subtractMultipolygons_numbered ok tb na va nb vb
  obtain ⟨g₄, -, e₄⟩ := symmetricSubtractMultipolygons_numbered tb na va nb vb
  obtain ⟨g₅, -, e₅⟩ := uniteMultipolygons_numbered tb na va nb vb
  exact ⟨⟨g₁, (treeHoleyIntersection_eq ha hb B S tb).trans e₁, e₁⟩, ⟨g₂, (treeHoleyCompleteIntersection_eq ha hb B S tb).trans e₂, e₂⟩,
    ⟨g₃, (treeHoleyDifference_eq ha hb B S tb).trans e₃, e₃⟩, ⟨g₄, (treeHoleySymmetricDifference_eq ha hb B S tb).trans e₄, e₄⟩,
    ⟨g₅, (treeHoleyUnion_eq ha hb B S tb).trans e₅, e₅⟩⟩

/-- **C78** Operations on polygons -/
theorem polygons_any_tree (ok : OrientOk o) {a b : Polygon} (va : ValidPolygon a) (vb : ValidPolygon b) :
    (∃ g, treeHoleyIntersection o B S tb (polygonOperand a) (polygonOperand b) = .ok g ∧ intersectPolygons o tb a b = .ok g) ∧
    (∃ g, treeHoleyCompleteIntersection o B S tb (polygonOperand a) (polygonOperand b) = .ok g ∧
      completeIntersectPolygons o tb a b = .ok g) ∧
    (∃ g, treeHoleyDifference o B S tb (polygonOperand a) (polygonOperand b) = .ok g ∧ subtractPolygons o tb a b = .ok g) ∧
    (∃ g, treeHoleySymmetricDifference B S tb (polygonOperand a) (polygonOperand b) = .ok g ∧ symmetricSubtractPolygons tb a b = .ok g) ∧
    (∃ g, treeHoleyUnion B S tb (polygonOperand a) (polygonOperand b) = .ok g ∧ unitePolygons tb a b = .ok g) := by
  have ha := polygonOperand_ok va
  have hb := polygonOperand_ok vb
  obtain ⟨g₁, -, e₁⟩ := intersectPolygons_numbered ok tb va vb
  obtain ⟨g₂, -, e₂⟩ := completeIntersectPolygons_numbered ok tb va vb
  obtain ⟨g₃, -, e₃⟩ := subtractPolygons_numbered ok tb va vb
  obtain ⟨g₄, -, e₄⟩ := symmetricSubtractPolygons_numbered tb va vb
  obtain ⟨g₅, -, e₅⟩ := unitePolygons_numbered tb va vb
  exact ⟨⟨g₁, (treeHoleyIntersection_eq ha hb B S tb).trans e₁, e₁⟩, ⟨g₂, (treeHoleyCompleteIntersection_eq ha hb B S tb).trans e₂, e₂⟩,
    ⟨g₃, (treeHoleyDifference_eq ha hb B S tb).trans e₃, e₃⟩, ⟨g₄, (treeHoleySymmetricDifference_eq ha hb B S tb).trans e₄, e₄⟩,
    ⟨g₅, (treeHoleyUnion_eq ha hb B S tb).trans e₅, e₅⟩⟩

/-- **C78** Operations on a polygon and a multipolygon -/
theorem polygon_multipolygon_any_tree (ok : OrientOk o) {a : Polygon} {b : List Polygon} (va : ValidPolygon a) (nb : b ≠ [])
    (vb : ValidPolygons b) :
    (∃ g, treeHoleyIntersection o B S tb (polygonOperand a) (multipolygonOperand b) = .ok g ∧
      intersectPolygonWithMultipolygon o tb a b = .ok g) ∧
    (∃ g, treeHoleyCompleteIntersection o B S tb (polygonOperand a) (multipolygonOperand b) = .ok g ∧
      completeIntersectPolygonWithMultipolygon o tb a b = .ok g) ∧
    (∃ g, treeHoleyDifference o B S tb (polygonOperand a) (multipolygonOperand b) = .ok g ∧
      subtractMultipolygonFromPolygon o tb a b = .ok g) ∧
    (∃ g, treeHoleyDifference o B S tb (multipolygonOperand b) (polygonOperand a) = .ok g ∧
      subtractPolygonFromMultipolygon o tb b a = .ok g) ∧
    (∃ g, treeHoleySymmetricDifference B S tb (polygonOperand a) (multipolygonOperand b) = .ok g ∧
      symmetricSubtractMultipolygonFromPolygon tb a b = .ok g) ∧
    (∃ g, treeHoleyUnion B S tb (polygonOperand a) (multipolygonOperand b) = .ok g ∧ unitePolygonWithMultipolygon tb a b = .ok g) := by
  have ha := polygonOperand_ok va
  have hb := multipolygonOperand_ok nb vb
  obtain ⟨g₁, -, e₁⟩ := intersectPolygonWithMultipolygon_numbered ok tb va nb vb
  obtain ⟨g₂, -, e₂⟩ := completeIntersectPolygonWithMultipolygon_numbered ok tb va nb vb
  obtain ⟨g₃, -, e₃⟩ := subtractMultipolygonFromPolygon_numbered ok tb va nb vb
  obtain ⟨g₄, -, e₄⟩ := subtractPolygonFromMultipolygon_numbered ok tb nb vb va
  obtain ⟨g₅, -, e₅⟩ := symmetricSubtractMultipolygonFromPolygon_numbered tb va nb vb
  obtain ⟨g₆, -, e₆⟩ := unitePolygonWithMultipolygon_numbered tb va nb vb
  exact ⟨⟨g₁, (treeHoleyIntersection_eq ha hb B S tb).trans e₁, e₁⟩, ⟨g₂, (treeHoleyCompleteIntersection_eq ha hb B S tb).trans e₂, e₂⟩,
    ⟨g₃, (treeHoleyDifference_eq ha hb B S tb).trans e₃, e₃⟩, ⟨g₄, (treeHoleyDifference_eq hb ha B S tb).trans e₄, e₄⟩,
    ⟨g₅, (treeHoleySymmetricDifference_eq ha hb B S tb).trans e₅, e₅⟩, ⟨g₆, (treeHoleyUnion_eq ha hb B S tb).trans e₆, e₆⟩⟩

/-- **C78** Operations on regions and multiregions -/
theorem regions_any_tree (ok : OrientOk o) {a b : List Contour} (na : a ≠ []) (va : ValidRegions a) (nb : b ≠ []) (vb : ValidRegions b) :
    (∃ g, treeHolelessIntersection o B S tb a b = .ok g ∧ intersectMultiregions o tb a b = .ok g) ∧
    (∃ g, treeHolelessCompleteIntersection o B S tb a b = .ok g ∧ completeIntersectMultiregions o tb a b = .ok g) := by
  obtain ⟨g₁, e₁, -⟩ := holelessIntersection_exact ok tb na va nb vb
  obtain ⟨g₂, e₂, -⟩ := holelessCompleteIntersection_exact ok tb na va nb vb
  exact ⟨⟨g₁, (treeHolelessIntersection_eq va.polygons vb.polygons na nb B S tb).trans e₁, e₁⟩,
    ⟨g₂, (treeHolelessCompleteIntersection_eq va.polygons vb.polygons na nb B S tb ok).trans e₂, e₂⟩⟩

end

/-- Two frames: the hypotheses are met, and the balanced tree gives two polygons. -/
example : exFrame ≠ [] ∧ ValidPolygons exFrame ∧ exFrame' ≠ [] ∧ ValidPolygons exFrame' ∧
    ∃ g, treeHoleySymmetricDifference redBlack insertionEventSort .id (multipolygonOperand exFrame) (multipolygonOperand exFrame') = .ok g ∧
      symmetricSubtractMultipolygons .id exFrame exFrame' = .ok g ∧ 2 ≤ g.polygons.length := by
  refine ⟨by decide, exFrame_valid, by decide, exFrame'_valid, ?_⟩
  obtain ⟨-, -, -, ⟨g, e, e'⟩, -⟩ := multipolygons_any_tree redBlack insertionEventSort .id exists_orient.choose_spec
    (by decide : exFrame ≠ []) exFrame_valid (by decide : exFrame' ≠ []) exFrame'_valid
  refine ⟨g, e, e', ?_⟩
  have : (symmetricSubtractMultipolygons .id exFrame exFrame').toOption.map (fun g => decide (2 ≤ g.polygons.length)) = some true := by
    decide +kernel
  rw [e'] at this
  simpa [Except.toOption] using this

end Clipping
