import Verif.Lemmas.Shaped.Empty
import Verif.Properties.Regions
import Verif.Properties.Complete

/-!
# C52: results are empty exactly if there is nothing in them

Operations on polygons, multipolygons, regions and multiregions return `Empty` exactly if

* intersection: all common points of the operands are on their edges,
* complete intersection: there are no common points,
* difference: all points of the first operand are points of the second one,
* symmetric difference: the operands have the same points,
* union: never,

for all valid operands, however their contours touch themselves and each other (compare the hypotheses of
`Properties/PolygonsExact.lean`).
-/

namespace Clipping

/-! ## Intersection -/

/-- **C52** `intersect_polygons`: the result is empty exactly if all common points are on edges of the operands. -/
theorem intersectPolygons_empty {o : Orient} (ok : OrientOk o) (tb : TieBreak) {a : Polygon} {b : Polygon}
    (va : ValidPolygon a) (vb : ValidPolygon b) : ∃ g, intersectPolygons o tb a b = .ok g ∧ (g = .empty ↔ a.pts ∩ b.pts ⊆ segsPts (a.edges ++ b.edges)) := by
  obtain ⟨g, h1, h2, h3, -⟩ := holeyIntersection_outlines ok (polygonOperand_ok va) (polygonOperand_ok vb) tb
  have E := h2.empty_iff.trans (h3.nil_inter (polygonOperand_ok va).valid (polygonOperand_ok vb).valid)
  simp only [polygonOperand, List.flatMap_cons, List.flatMap_nil, List.append_nil, polysPts_single] at E
  exact ⟨g, h1, E⟩

/-- **C52** `intersect_polygon_with_multipolygon`: the result is empty exactly if all common points are on edges of the operands. -/
theorem intersectPolygonWithMultipolygon_empty {o : Orient} (ok : OrientOk o) (tb : TieBreak) {a : Polygon} {b : List Polygon}
    (va : ValidPolygon a) (nb : b ≠ []) (vb : ValidPolygons b) : ∃ g, intersectPolygonWithMultipolygon o tb a b = .ok g ∧ (g = .empty ↔ a.pts ∩ polysPts b ⊆ segsPts (a.edges ++ b.flatMap Polygon.edges)) := by
  obtain ⟨g, h1, h2, h3, -⟩ := holeyIntersection_outlines ok (polygonOperand_ok va) (multipolygonOperand_ok nb vb) tb
  have E := h2.empty_iff.trans (h3.nil_inter (polygonOperand_ok va).valid vb)
  simp only [polygonOperand, List.flatMap_cons, List.flatMap_nil, List.append_nil, polysPts_single] at E
  exact ⟨g, h1, E⟩

/-- **C52** `intersect_multipolygons`: the result is empty exactly if all common points are on edges of the operands. -/
theorem intersectMultipolygons_empty {o : Orient} (ok : OrientOk o) (tb : TieBreak) {a : List Polygon} {b : List Polygon}
    (na : a ≠ []) (va : ValidPolygons a) (nb : b ≠ []) (vb : ValidPolygons b) : ∃ g, intersectMultipolygons o tb a b = .ok g ∧ (g = .empty ↔ polysPts a ∩ polysPts b ⊆ segsPts (a.flatMap Polygon.edges ++ b.flatMap Polygon.edges)) := by
  obtain ⟨g, h1, h2, h3, -⟩ := holeyIntersection_outlines ok (multipolygonOperand_ok na va) (multipolygonOperand_ok nb vb) tb
  have E := h2.empty_iff.trans (h3.nil_inter va vb)
  exact ⟨g, h1, E⟩

theorem holelessIntersection_empty {o : Orient} (ok : OrientOk o) (tb : TieBreak) {P Q : List Contour} (nP : P ≠ [])
    (hP : ValidRegions P) (nQ : Q ≠ []) (hQ : ValidRegions Q) :
    ∃ g, holelessIntersection o tb P Q = .ok g ∧
      (g = .empty ↔ regionsPts P ∩ regionsPts Q ⊆ segsPts (P.flatMap Contour.edges ++ Q.flatMap Contour.edges)) := by
  obtain ⟨cs, h1, O, -, -⟩ := holelessIntersection_outlines ok hP.polygons hQ.polygons nP nQ tb
  have E := O.nil_inter hP.polygons hQ.polygons
  rw [Selected.RegionsInv.flatMap_edges, Selected.RegionsInv.flatMap_edges, polysPts_regions P, polysPts_regions Q] at E
  refine ⟨_, h1, ?_⟩
  rw [unpackRegions_eq, (unpackPolygons_isShaped _).empty_iff, unpackPolygons_polygons]
  exact E

/-- **C52** `intersect_regions`: the result is empty exactly if all common points are on edges of the operands. -/
theorem intersectRegions_empty {o : Orient} (ok : OrientOk o) (tb : TieBreak) {a : Contour} {b : Contour}
    (va : SimpleContour a) (vb : SimpleContour b) : ∃ g, intersectRegions o tb a b = .ok g ∧
      (g = .empty ↔ regionPts a.edges ∩ regionPts b.edges ⊆ segsPts (a.edges ++ b.edges)) := by
  obtain ⟨g, h1, h2⟩ := holelessIntersection_empty ok tb (P := [a]) (Q := [b]) (by simp) (validRegions_single va) (by simp) (validRegions_single vb)
  simp only [List.flatMap_cons, List.flatMap_nil, List.append_nil, regionsPts_single] at h2
  exact ⟨g, h1, h2⟩

/-- **C52** `intersect_region_with_multiregion`: the result is empty exactly if all common points are on edges of the operands. -/
theorem intersectRegionWithMultiregion_empty {o : Orient} (ok : OrientOk o) (tb : TieBreak) {a : Contour} {b : List Contour}
    (va : SimpleContour a) (nb : b ≠ []) (vb : ValidRegions b) : ∃ g, intersectRegionWithMultiregion o tb a b = .ok g ∧
      (g = .empty ↔ regionPts a.edges ∩ regionsPts b ⊆ segsPts (a.edges ++ b.flatMap Contour.edges)) := by
  obtain ⟨g, h1, h2⟩ := holelessIntersection_empty ok tb (P := [a]) (Q := b) (by simp) (validRegions_single va) nb vb
  simp only [List.flatMap_cons, List.flatMap_nil, List.append_nil, regionsPts_single] at h2
  exact ⟨g, h1, h2⟩

/-- **C52** `intersect_multiregions`: the result is empty exactly if all common points are on edges of the operands. -/
theorem intersectMultiregions_empty {o : Orient} (ok : OrientOk o) (tb : TieBreak) {a : List Contour} {b : List Contour}
    (na : a ≠ []) (va : ValidRegions a) (nb : b ≠ []) (vb : ValidRegions b) : ∃ g, intersectMultiregions o tb a b = .ok g ∧
      (g = .empty ↔ regionsPts a ∩ regionsPts b ⊆ segsPts (a.flatMap Contour.edges ++ b.flatMap Contour.edges)) := by
  obtain ⟨g, h1, h2⟩ := holelessIntersection_empty ok tb (P := a) (Q := b) na va nb vb
  exact ⟨g, h1, h2⟩

/-! ## Complete intersection -/

/-- **C52** `complete_intersect_polygons`: the result is empty exactly if there are no common points. -/
theorem completeIntersectPolygons_empty {o : Orient} (ok : OrientOk o) (tb : TieBreak) {a : Polygon} {b : Polygon}
    (va : ValidPolygon a) (vb : ValidPolygon b) : ∃ g, completeIntersectPolygons o tb a b = .ok g ∧ (g = .empty ↔ a.pts ∩ b.pts = ∅) := by
  obtain ⟨g, h1, h2, h3, -, h5⟩ := completeIntersectPolygons_parts ok tb va vb
  exact ⟨g, h1, h5.empty_iff h2 h3.border⟩

/-- **C52** `complete_intersect_polygon_with_multipolygon`: the result is empty exactly if there are no common points. -/
theorem completeIntersectPolygonWithMultipolygon_empty {o : Orient} (ok : OrientOk o) (tb : TieBreak) {a : Polygon} {b : List Polygon}
    (va : ValidPolygon a) (nb : b ≠ []) (vb : ValidPolygons b) : ∃ g, completeIntersectPolygonWithMultipolygon o tb a b = .ok g ∧ (g = .empty ↔ a.pts ∩ polysPts b = ∅) := by
  obtain ⟨g, h1, h2, h3, -, h5⟩ := completeIntersectPolygonWithMultipolygon_parts ok tb va nb vb
  exact ⟨g, h1, h5.empty_iff h2 h3.border⟩

/-- **C52** `complete_intersect_multipolygons`: the result is empty exactly if there are no common points. -/
theorem completeIntersectMultipolygons_empty {o : Orient} (ok : OrientOk o) (tb : TieBreak) {a : List Polygon} {b : List Polygon}
    (na : a ≠ []) (va : ValidPolygons a) (nb : b ≠ []) (vb : ValidPolygons b) : ∃ g, completeIntersectMultipolygons o tb a b = .ok g ∧ (g = .empty ↔ polysPts a ∩ polysPts b = ∅) := by
  obtain ⟨g, h1, h2, h3, -, h5⟩ := completeIntersectMultipolygons_parts ok tb na va nb vb
  exact ⟨g, h1, h5.empty_iff h2 h3.border⟩

/-- **C52** `complete_intersect_regions`: the result is empty exactly if there are no common points. -/
theorem completeIntersectRegions_empty {o : Orient} (ok : OrientOk o) (tb : TieBreak) {a : Contour} {b : Contour}
    (va : SimpleContour a) (vb : SimpleContour b) : ∃ g, completeIntersectRegions o tb a b = .ok g ∧
      (g = .empty ↔ regionPts a.edges ∩ regionPts b.edges = ∅) := by
  obtain ⟨g, h1, h2, -, h4, -, h6⟩ := completeIntersectRegions_exact ok tb va vb
  rw [h4.polysPts_eq] at h6
  exact ⟨g, h1, h6.empty_iff h2 fun p hp => (h4.valid p hp).border⟩

/-- **C52** `complete_intersect_region_with_multiregion`: the result is empty exactly if there are no common points. -/
theorem completeIntersectRegionWithMultiregion_empty {o : Orient} (ok : OrientOk o) (tb : TieBreak) {a : Contour} {b : List Contour}
    (va : SimpleContour a) (nb : b ≠ []) (vb : ValidRegions b) : ∃ g, completeIntersectRegionWithMultiregion o tb a b = .ok g ∧
      (g = .empty ↔ regionPts a.edges ∩ regionsPts b = ∅) := by
  obtain ⟨g, h1, h2, -, h4, -, h6⟩ := completeIntersectRegionWithMultiregion_exact ok tb va nb vb
  rw [h4.polysPts_eq] at h6
  exact ⟨g, h1, h6.empty_iff h2 fun p hp => (h4.valid p hp).border⟩

/-- **C52** `complete_intersect_multiregions`: the result is empty exactly if there are no common points. -/
theorem completeIntersectMultiregions_empty {o : Orient} (ok : OrientOk o) (tb : TieBreak) {a : List Contour} {b : List Contour}
    (na : a ≠ []) (va : ValidRegions a) (nb : b ≠ []) (vb : ValidRegions b) : ∃ g, completeIntersectMultiregions o tb a b = .ok g ∧
      (g = .empty ↔ regionsPts a ∩ regionsPts b = ∅) := by
  obtain ⟨g, h1, h2, -, h4, -, h6⟩ := completeIntersectMultiregions_exact ok tb na va nb vb
  rw [h4.polysPts_eq] at h6
  exact ⟨g, h1, h6.empty_iff h2 fun p hp => (h4.valid p hp).border⟩

/-! ## Difference -/

/-- **C52** `subtract_polygons`: the result is empty exactly if the first operand is within the second one. -/
theorem subtractPolygons_empty {o : Orient} (ok : OrientOk o) (tb : TieBreak) {a : Polygon} {b : Polygon}
    (va : ValidPolygon a) (vb : ValidPolygon b) : ∃ g, subtractPolygons o tb a b = .ok g ∧ (g = .empty ↔ a.pts ⊆ b.pts) := by
  obtain ⟨g, h1, h2, h3, -⟩ := holeyDifference_outlines ok (polygonOperand_ok va) (polygonOperand_ok vb) tb rfl trivial
  have E := h2.empty_iff.trans (h3.nil_diff (polygonOperand_ok va).valid (polygonOperand_ok vb).valid)
  simp only [polygonOperand, polysPts_single] at E
  exact ⟨g, h1, E⟩

/-- **C52** `subtract_multipolygon_from_polygon`: the result is empty exactly if the first operand is within the second one. -/
theorem subtractMultipolygonFromPolygon_empty {o : Orient} (ok : OrientOk o) (tb : TieBreak) {a : Polygon} {b : List Polygon}
    (va : ValidPolygon a) (nb : b ≠ []) (vb : ValidPolygons b) : ∃ g, subtractMultipolygonFromPolygon o tb a b = .ok g ∧ (g = .empty ↔ a.pts ⊆ polysPts b) := by
  obtain ⟨g, h1, h2, h3, -⟩ := holeyDifference_outlines ok (polygonOperand_ok va) (multipolygonOperand_ok nb vb) tb rfl trivial
  have E := h2.empty_iff.trans (h3.nil_diff (polygonOperand_ok va).valid vb)
  simp only [polygonOperand, polysPts_single] at E
  exact ⟨g, h1, E⟩

/-- **C52** `subtract_polygon_from_multipolygon`: the result is empty exactly if the first operand is within the second one. -/
theorem subtractPolygonFromMultipolygon_empty {o : Orient} (ok : OrientOk o) (tb : TieBreak) {a : List Polygon} {b : Polygon}
    (na : a ≠ []) (va : ValidPolygons a) (vb : ValidPolygon b) : ∃ g, subtractPolygonFromMultipolygon o tb a b = .ok g ∧ (g = .empty ↔ polysPts a ⊆ b.pts) := by
  obtain ⟨g, h1, h2, h3, -⟩ := holeyDifference_outlines ok (multipolygonOperand_ok na va) (polygonOperand_ok vb) tb rfl na
  have E := h2.empty_iff.trans (h3.nil_diff va (polygonOperand_ok vb).valid)
  simp only [polygonOperand, polysPts_single] at E
  exact ⟨g, h1, E⟩

/-- **C52** `subtract_multipolygons`: the result is empty exactly if the first operand is within the second one. -/
theorem subtractMultipolygons_empty {o : Orient} (ok : OrientOk o) (tb : TieBreak) {a : List Polygon} {b : List Polygon}
    (na : a ≠ []) (va : ValidPolygons a) (nb : b ≠ []) (vb : ValidPolygons b) : ∃ g, subtractMultipolygons o tb a b = .ok g ∧ (g = .empty ↔ polysPts a ⊆ polysPts b) := by
  obtain ⟨g, h1, h2, h3, -⟩ := holeyDifference_outlines ok (multipolygonOperand_ok na va) (multipolygonOperand_ok nb vb) tb rfl na
  have E := h2.empty_iff.trans (h3.nil_diff va vb)
  exact ⟨g, h1, E⟩

/-! ## Symmetric difference -/

/-- **C52** `symmetric_subtract_polygons`: the result is empty exactly if the operands have the same points. -/
theorem symmetricSubtractPolygons_empty (tb : TieBreak) {a : Polygon} {b : Polygon}
    (va : ValidPolygon a) (vb : ValidPolygon b) : ∃ g, symmetricSubtractPolygons tb a b = .ok g ∧ (g = .empty ↔ a.pts = b.pts) := by
  obtain ⟨g, h1, h2, h3, -⟩ := holeySymmetricDifference_outlines (polygonOperand_ok va) (polygonOperand_ok vb) tb
  have E := h2.empty_iff.trans (h3.nil_xor (polygonOperand_ok va).valid (polygonOperand_ok vb).valid)
  simp only [polygonOperand, polysPts_single] at E
  exact ⟨g, h1, E⟩

/-- **C52** `symmetric_subtract_multipolygon_from_polygon`: the result is empty exactly if the operands have the same points. -/
theorem symmetricSubtractMultipolygonFromPolygon_empty (tb : TieBreak) {a : Polygon} {b : List Polygon}
    (va : ValidPolygon a) (nb : b ≠ []) (vb : ValidPolygons b) : ∃ g, symmetricSubtractMultipolygonFromPolygon tb a b = .ok g ∧ (g = .empty ↔ a.pts = polysPts b) := by
  obtain ⟨g, h1, h2, h3, -⟩ := holeySymmetricDifference_outlines (polygonOperand_ok va) (multipolygonOperand_ok nb vb) tb
  have E := h2.empty_iff.trans (h3.nil_xor (polygonOperand_ok va).valid vb)
  simp only [polygonOperand, polysPts_single] at E
  exact ⟨g, h1, E⟩

/-- **C52** `symmetric_subtract_multipolygons`: the result is empty exactly if the operands have the same points. -/
theorem symmetricSubtractMultipolygons_empty (tb : TieBreak) {a : List Polygon} {b : List Polygon}
    (na : a ≠ []) (va : ValidPolygons a) (nb : b ≠ []) (vb : ValidPolygons b) : ∃ g, symmetricSubtractMultipolygons tb a b = .ok g ∧ (g = .empty ↔ polysPts a = polysPts b) := by
  obtain ⟨g, h1, h2, h3, -⟩ := holeySymmetricDifference_outlines (multipolygonOperand_ok na va) (multipolygonOperand_ok nb vb) tb
  have E := h2.empty_iff.trans (h3.nil_xor va vb)
  exact ⟨g, h1, E⟩

/-! ## Union -/

/-- **C52** `unite_polygons`: the result is not empty. -/
theorem unitePolygons_empty (tb : TieBreak) {a : Polygon} {b : Polygon}
    (va : ValidPolygon a) (vb : ValidPolygon b) : ∃ g, unitePolygons tb a b = .ok g ∧ g ≠ .empty := by
  obtain ⟨g, h1, h2, h3, -⟩ := holeyUnion_outlines (polygonOperand_ok va) (polygonOperand_ok vb) tb
  exact ⟨g, h1, fun h => h3.union_ne_nil (polygonOperand_ok va).valid (polygonOperand_ok vb).valid (by simp [polygonOperand]) (h2.empty_iff.1 h)⟩

/-- **C52** `unite_polygon_with_multipolygon`: the result is not empty. -/
theorem unitePolygonWithMultipolygon_empty (tb : TieBreak) {a : Polygon} {b : List Polygon}
    (va : ValidPolygon a) (nb : b ≠ []) (vb : ValidPolygons b) : ∃ g, unitePolygonWithMultipolygon tb a b = .ok g ∧ g ≠ .empty := by
  obtain ⟨g, h1, h2, h3, -⟩ := holeyUnion_outlines (polygonOperand_ok va) (multipolygonOperand_ok nb vb) tb
  exact ⟨g, h1, fun h => h3.union_ne_nil (polygonOperand_ok va).valid vb (by simp [polygonOperand]) (h2.empty_iff.1 h)⟩

/-- **C52** `unite_multipolygons`: the result is not empty. -/
theorem uniteMultipolygons_empty (tb : TieBreak) {a : List Polygon} {b : List Polygon}
    (na : a ≠ []) (va : ValidPolygons a) (nb : b ≠ []) (vb : ValidPolygons b) : ∃ g, uniteMultipolygons tb a b = .ok g ∧ g ≠ .empty := by
  obtain ⟨g, h1, h2, h3, -⟩ := holeyUnion_outlines (multipolygonOperand_ok na va) (multipolygonOperand_ok nb vb) tb
  exact ⟨g, h1, fun h => h3.union_ne_nil va vb na (h2.empty_iff.1 h)⟩

/-! ## Examples -/

/-- A frame is within the square with the same border, not the other way round. -/
example (tb : TieBreak) :
    (∃ g, subtractPolygons (Classical.choose exists_orient) tb (frame 0 0 4 1 2) ⟨squareContour 0 0 4, []⟩ = .ok g ∧ g = .empty) ∧
      ∃ g, subtractPolygons (Classical.choose exists_orient) tb ⟨squareContour 0 0 4, []⟩ (frame 0 0 4 1 2) = .ok g ∧ g ≠ .empty := by
  have v1 : ValidPolygon (frame 0 0 4 1 2) := frame_valid (by norm_num) (by norm_num) (by norm_num)
  have v2 : ValidPolygon ⟨squareContour 0 0 4, []⟩ := (squareContour_simple (by norm_num)).validPolygon
  constructor
  · obtain ⟨g, h1, h2⟩ := subtractPolygons_empty (Classical.choose_spec exists_orient) tb v1 v2
    refine ⟨g, h1, h2.2 fun q hq => ?_⟩
    rw [polygon_pts_eq] at hq ⊢
    have := frame_box (by norm_num) (by norm_num) (by norm_num) hq
    simp only [Polygon.edges, List.flatMap_nil, List.append_nil]
    rw [square_region (by norm_num)]
    exact this
  · obtain ⟨g, h1, h2⟩ := subtractPolygons_empty (Classical.choose_spec exists_orient) tb v2 v1
    refine ⟨g, h1, fun h => ?_⟩
    have h3 := h2.1 h
    have h4 : (⟨2, 2⟩ : Point) ∈ (⟨squareContour 0 0 4, []⟩ : Polygon).pts := by
      rw [polygon_pts_eq]
      simp only [Polygon.edges, List.flatMap_nil, List.append_nil]
      rw [square_region (by norm_num)]
      norm_num
    have h5 := h3 h4
    rw [polygon_pts_eq, frame_edges] at h5
    rcases h5 with h5 | h5
    · rw [segsPts_append, Set.mem_union, square_segsPts (by norm_num), square_segsPts (by norm_num)] at h5
      norm_num at h5
    · revert h5
      decide +kernel

/-- Squares with a common edge have common points, all of them on their edges. -/
example (tb : TieBreak) :
    (∃ g, intersectRegions (Classical.choose exists_orient) tb (squareContour 0 0 2) (squareContour 2 1 2) = .ok g ∧ g = .empty) ∧
      ∃ g, completeIntersectRegions (Classical.choose exists_orient) tb (squareContour 0 0 2) (squareContour 2 1 2) = .ok g ∧
        g ≠ .empty := by
  have v1 : SimpleContour (squareContour 0 0 2) := squareContour_simple (by norm_num)
  have v2 : SimpleContour (squareContour 2 1 2) := squareContour_simple (by norm_num)
  constructor
  · obtain ⟨g, h1, h2⟩ := intersectRegions_empty (Classical.choose_spec exists_orient) tb v1 v2
    refine ⟨g, h1, h2.2 fun q hq => ?_⟩
    rw [Set.mem_inter_iff, square_region (by norm_num), square_region (by norm_num)] at hq
    rw [segsPts_append]
    left
    rw [square_segsPts (by norm_num)]
    obtain ⟨⟨a1, a2, a3, a4⟩, b1, b2, b3, b4⟩ := hq
    exact Or.inr (Or.inl ⟨by linarith, a3, a4⟩)
  · obtain ⟨g, h1, h2⟩ := completeIntersectRegions_empty (Classical.choose_spec exists_orient) tb v1 v2
    refine ⟨g, h1, fun h => ?_⟩
    have h3 := h2.1 h
    have h4 : (⟨2, 1⟩ : Point) ∈ regionPts (squareContour 0 0 2).edges ∩ regionPts (squareContour 2 1 2).edges := by
      rw [Set.mem_inter_iff, square_region (by norm_num), square_region (by norm_num)]
      norm_num
    rw [h3] at h4
    exact h4

/-- The hypotheses are met where the results are not exact (`symmetricSubtract_not_exact`). -/
example (tb : TieBreak) : ∃ g, symmetricSubtractMultipolygonFromPolygon tb exTriangle exTriangles = .ok g ∧
    (g = .empty ↔ exTriangle.pts = polysPts exTriangles) :=
  symmetricSubtractMultipolygonFromPolygon_empty tb exTriangle_valid (by simp [exTriangles]) exTriangles_valid

end Clipping
