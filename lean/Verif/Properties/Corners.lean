import Verif.Lemmas.Shaped.CornersResult
import Verif.Properties.Regions
import Verif.Properties.Complete
import Verif.Properties.Polygons
import Verif.Properties.Normal

/-!
# C53: results have no vertices but those of the operands and crossings of an edge of each operand

Every vertex of a result on polygons, multipolygons, regions and multiregions is an end of an edge of an operand, or the only common
point of an edge of one operand and an edge of the other one (`IsCorner`, `Spec/Corner.lean`); the same holds for the ends of the segments
and for the single points of complete intersections.  No coordinates come from anywhere else, for all valid operands.
-/

namespace Clipping

/-! ## Operations in general -/

theorem holeyIntersection_corners {o : Orient} (ok : OrientOk o) {a b : ShapedOperand} (ha : ShapedOk a) (hb : ShapedOk b) (tb : TieBreak) :
    ∃ g, holeyIntersection o tb a b = .ok g ∧
      CornersOnly (a.polygons.flatMap Polygon.edges) (b.polygons.flatMap Polygon.edges) g.polygons := by
  obtain ⟨g, e, -, O, -⟩ := holeyIntersection_outlines ok ha hb tb
  exact ⟨g, e, O.corners ha.valid hb.valid (holeyIntersection_normal ha hb tb e)⟩

theorem holeyDifference_corners {o : Orient} (ok : OrientOk o) {a b : ShapedOperand} (ha : ShapedOk a) (hb : ShapedOk b) (tb : TieBreak)
    (hv : a.value.polygons = a.polygons) (hs : a.value.IsShaped) :
    ∃ g, holeyDifference o tb a b = .ok g ∧
      CornersOnly (a.polygons.flatMap Polygon.edges) (b.polygons.flatMap Polygon.edges) g.polygons := by
  obtain ⟨g, e, -, O, -⟩ := holeyDifference_outlines ok ha hb tb hv hs
  refine ⟨g, e, ?_⟩
  rcases holeyDifference_normal ha hb tb e with rfl | N
  · exact cornersOnly_of_subset fun p hp => List.mem_append_left _ (by rwa [hv] at hp)
  · exact O.corners ha.valid hb.valid N

theorem holeySymmetricDifference_corners {a b : ShapedOperand} (ha : ShapedOk a) (hb : ShapedOk b) (tb : TieBreak) :
    ∃ g, holeySymmetricDifference tb a b = .ok g ∧
      CornersOnly (a.polygons.flatMap Polygon.edges) (b.polygons.flatMap Polygon.edges) g.polygons := by
  obtain ⟨g, e, -, O, -⟩ := holeySymmetricDifference_outlines ha hb tb
  refine ⟨g, e, ?_⟩
  rcases (holeySymmetricDifference_normal ha hb tb e).2 with h | N
  · exact cornersOnly_of_subset fun p hp => h.mem_iff.1 hp
  · exact O.corners ha.valid hb.valid N

theorem holeyUnion_corners {a b : ShapedOperand} (ha : ShapedOk a) (hb : ShapedOk b) (tb : TieBreak) :
    ∃ g, holeyUnion tb a b = .ok g ∧
      CornersOnly (a.polygons.flatMap Polygon.edges) (b.polygons.flatMap Polygon.edges) g.polygons := by
  obtain ⟨g, e, -, O, -⟩ := holeyUnion_outlines ha hb tb
  refine ⟨g, e, ?_⟩
  rcases (holeyUnion_normal ha hb tb e).2 with h | N
  · exact cornersOnly_of_subset fun p hp => h.mem_iff.1 hp
  · exact O.corners ha.valid hb.valid N

theorem holeyCompleteIntersection_corners {o : Orient} (ok : OrientOk o) {a b : ShapedOperand} (ha : ShapedOk a) (hb : ShapedOk b)
    (tb : TieBreak) : ∃ g, holeyCompleteIntersection o tb a b = .ok g ∧
      CornersOnly (a.polygons.flatMap Polygon.edges) (b.polygons.flatMap Polygon.edges) g.shapedPolygons ∧
      (∀ t ∈ g.linearSegments, ∀ v, t.IsEnd v → IsCorner (a.polygons.flatMap Polygon.edges) (b.polygons.flatMap Polygon.edges) v) ∧
      ∀ v ∈ g.discretePoints, IsCorner (a.polygons.flatMap Polygon.edges) (b.polygons.flatMap Polygon.edges) v := by
  obtain ⟨g, e, -, O, -, -, C⟩ := holeyCompleteIntersection_parts ok ha hb tb
  exact ⟨g, e, O.corners ha.valid hb.valid (holeyCompleteIntersection_normal ha hb tb e), holeyComplete_corners ha hb tb e,
    fun v hv => C.corner ha.valid hb.valid O.noOverlap.1 O.even hv⟩

theorem holelessIntersection_corners {o : Orient} (ok : OrientOk o) (tb : TieBreak) {P Q : List Contour} (nP : P ≠ [])
    (hP : ValidRegions P) (nQ : Q ≠ []) (hQ : ValidRegions Q) : ∃ g, holelessIntersection o tb P Q = .ok g ∧
      CornersOnly (P.flatMap Contour.edges) (Q.flatMap Contour.edges) g.polygons := by
  obtain ⟨cs, e, O, -, -⟩ := holelessIntersection_outlines ok hP.polygons hQ.polygons nP nQ tb
  have N := holelessIntersection_normal hP.polygons hQ.polygons nP nQ tb e
  rw [unpackRegions_eq, unpackPolygons_polygons] at N
  have := O.corners hP.polygons hQ.polygons N
  rw [Selected.RegionsInv.flatMap_edges, Selected.RegionsInv.flatMap_edges] at this
  refine ⟨_, e, ?_⟩
  rw [unpackRegions_eq, unpackPolygons_polygons]
  exact this

theorem holelessCompleteIntersection_corners {o : Orient} (ok : OrientOk o) (tb : TieBreak) {P Q : List Contour} (nP : P ≠ [])
    (hP : ValidRegions P) (nQ : Q ≠ []) (hQ : ValidRegions Q) : ∃ g, holelessCompleteIntersection o tb P Q = .ok g ∧
      CornersOnly (P.flatMap Contour.edges) (Q.flatMap Contour.edges) g.shapedPolygons ∧
      (∀ t ∈ g.linearSegments, ∀ v, t.IsEnd v → IsCorner (P.flatMap Contour.edges) (Q.flatMap Contour.edges) v) ∧
      ∀ v ∈ g.discretePoints, IsCorner (P.flatMap Contour.edges) (Q.flatMap Contour.edges) v := by
  obtain ⟨g, e, -, O, -, -, V, C⟩ := holelessCompleteIntersection_parts ok hP.polygons hQ.polygons nP nQ tb
  have h1 := O.corners hP.polygons hQ.polygons (holelessCompleteIntersection_normal hP.polygons hQ.polygons nP nQ ok tb e)
  have h2 := holelessComplete_corners ok hP.polygons hQ.polygons nP nQ tb e
  rw [V.polysPts_eq] at C
  have h3 := fun v hv => C.corner hP.polygons hQ.polygons O.noOverlap.1 O.even (q := v) hv
  rw [Selected.RegionsInv.flatMap_edges, Selected.RegionsInv.flatMap_edges] at h1 h2 h3
  exact ⟨g, e, h1, h2, h3⟩

/-! ## Polygons -/

/-- **C53** `intersect_polygons` -/
theorem intersectPolygons_corners {o : Orient} (ok : OrientOk o) (tb : TieBreak) {a : Polygon} {b : Polygon}
    (va : ValidPolygon a) (vb : ValidPolygon b) : ∃ g, intersectPolygons o tb a b = .ok g ∧
      CornersOnly a.edges b.edges g.polygons := by
  have := holeyIntersection_corners ok (polygonOperand_ok va) (polygonOperand_ok vb) tb
  simp only [polygonOperand, List.flatMap_cons, List.flatMap_nil, List.append_nil] at this
  exact this

/-- **C53** `intersect_polygon_with_multipolygon` -/
theorem intersectPolygonWithMultipolygon_corners {o : Orient} (ok : OrientOk o) (tb : TieBreak) {a : Polygon} {b : List Polygon}
    (va : ValidPolygon a) (nb : b ≠ []) (vb : ValidPolygons b) : ∃ g, intersectPolygonWithMultipolygon o tb a b = .ok g ∧
      CornersOnly a.edges (b.flatMap Polygon.edges) g.polygons := by
  have := holeyIntersection_corners ok (polygonOperand_ok va) (multipolygonOperand_ok nb vb) tb
  simp only [polygonOperand, List.flatMap_cons, List.flatMap_nil, List.append_nil] at this
  exact this

/-- **C53** `intersect_multipolygons` -/
theorem intersectMultipolygons_corners {o : Orient} (ok : OrientOk o) (tb : TieBreak) {a : List Polygon} {b : List Polygon}
    (na : a ≠ []) (va : ValidPolygons a) (nb : b ≠ []) (vb : ValidPolygons b) : ∃ g, intersectMultipolygons o tb a b = .ok g ∧
      CornersOnly (a.flatMap Polygon.edges) (b.flatMap Polygon.edges) g.polygons := by
  have := holeyIntersection_corners ok (multipolygonOperand_ok na va) (multipolygonOperand_ok nb vb) tb
  exact this

/-- **C53** `complete_intersect_polygons` -/
theorem completeIntersectPolygons_corners {o : Orient} (ok : OrientOk o) (tb : TieBreak) {a : Polygon} {b : Polygon}
    (va : ValidPolygon a) (vb : ValidPolygon b) : ∃ g, completeIntersectPolygons o tb a b = .ok g ∧
      CornersOnly a.edges b.edges g.shapedPolygons ∧
      (∀ t ∈ g.linearSegments, ∀ v, t.IsEnd v → IsCorner a.edges b.edges v) ∧
      ∀ v ∈ g.discretePoints, IsCorner a.edges b.edges v := by
  have := holeyCompleteIntersection_corners ok (polygonOperand_ok va) (polygonOperand_ok vb) tb
  simp only [polygonOperand, List.flatMap_cons, List.flatMap_nil, List.append_nil] at this
  exact this

/-- **C53** `complete_intersect_polygon_with_multipolygon` -/
theorem completeIntersectPolygonWithMultipolygon_corners {o : Orient} (ok : OrientOk o) (tb : TieBreak) {a : Polygon} {b : List Polygon}
    (va : ValidPolygon a) (nb : b ≠ []) (vb : ValidPolygons b) : ∃ g, completeIntersectPolygonWithMultipolygon o tb a b = .ok g ∧
      CornersOnly a.edges (b.flatMap Polygon.edges) g.shapedPolygons ∧
      (∀ t ∈ g.linearSegments, ∀ v, t.IsEnd v → IsCorner a.edges (b.flatMap Polygon.edges) v) ∧
      ∀ v ∈ g.discretePoints, IsCorner a.edges (b.flatMap Polygon.edges) v := by
  have := holeyCompleteIntersection_corners ok (polygonOperand_ok va) (multipolygonOperand_ok nb vb) tb
  simp only [polygonOperand, List.flatMap_cons, List.flatMap_nil, List.append_nil] at this
  exact this

/-- **C53** `complete_intersect_multipolygons` -/
theorem completeIntersectMultipolygons_corners {o : Orient} (ok : OrientOk o) (tb : TieBreak) {a : List Polygon} {b : List Polygon}
    (na : a ≠ []) (va : ValidPolygons a) (nb : b ≠ []) (vb : ValidPolygons b) : ∃ g, completeIntersectMultipolygons o tb a b = .ok g ∧
      CornersOnly (a.flatMap Polygon.edges) (b.flatMap Polygon.edges) g.shapedPolygons ∧
      (∀ t ∈ g.linearSegments, ∀ v, t.IsEnd v → IsCorner (a.flatMap Polygon.edges) (b.flatMap Polygon.edges) v) ∧
      ∀ v ∈ g.discretePoints, IsCorner (a.flatMap Polygon.edges) (b.flatMap Polygon.edges) v := by
  have := holeyCompleteIntersection_corners ok (multipolygonOperand_ok na va) (multipolygonOperand_ok nb vb) tb
  exact this

/-- **C53** `subtract_polygons` -/
theorem subtractPolygons_corners {o : Orient} (ok : OrientOk o) (tb : TieBreak) {a : Polygon} {b : Polygon}
    (va : ValidPolygon a) (vb : ValidPolygon b) : ∃ g, subtractPolygons o tb a b = .ok g ∧
      CornersOnly a.edges b.edges g.polygons := by
  have := holeyDifference_corners ok (polygonOperand_ok va) (polygonOperand_ok vb) tb rfl trivial
  simp only [polygonOperand, List.flatMap_cons, List.flatMap_nil, List.append_nil] at this
  exact this

/-- **C53** `subtract_multipolygon_from_polygon` -/
theorem subtractMultipolygonFromPolygon_corners {o : Orient} (ok : OrientOk o) (tb : TieBreak) {a : Polygon} {b : List Polygon}
    (va : ValidPolygon a) (nb : b ≠ []) (vb : ValidPolygons b) : ∃ g, subtractMultipolygonFromPolygon o tb a b = .ok g ∧
      CornersOnly a.edges (b.flatMap Polygon.edges) g.polygons := by
  have := holeyDifference_corners ok (polygonOperand_ok va) (multipolygonOperand_ok nb vb) tb rfl trivial
  simp only [polygonOperand, List.flatMap_cons, List.flatMap_nil, List.append_nil] at this
  exact this

/-- **C53** `subtract_polygon_from_multipolygon` -/
theorem subtractPolygonFromMultipolygon_corners {o : Orient} (ok : OrientOk o) (tb : TieBreak) {a : List Polygon} {b : Polygon}
    (na : a ≠ []) (va : ValidPolygons a) (vb : ValidPolygon b) : ∃ g, subtractPolygonFromMultipolygon o tb a b = .ok g ∧
      CornersOnly (a.flatMap Polygon.edges) b.edges g.polygons := by
  have := holeyDifference_corners ok (multipolygonOperand_ok na va) (polygonOperand_ok vb) tb rfl na
  simp only [polygonOperand, List.flatMap_cons, List.flatMap_nil, List.append_nil] at this
  exact this

/-- **C53** `subtract_multipolygons` -/
theorem subtractMultipolygons_corners {o : Orient} (ok : OrientOk o) (tb : TieBreak) {a : List Polygon} {b : List Polygon}
    (na : a ≠ []) (va : ValidPolygons a) (nb : b ≠ []) (vb : ValidPolygons b) : ∃ g, subtractMultipolygons o tb a b = .ok g ∧
      CornersOnly (a.flatMap Polygon.edges) (b.flatMap Polygon.edges) g.polygons := by
  have := holeyDifference_corners ok (multipolygonOperand_ok na va) (multipolygonOperand_ok nb vb) tb rfl na
  exact this

/-- **C53** `symmetric_subtract_polygons` -/
theorem symmetricSubtractPolygons_corners (tb : TieBreak) {a : Polygon} {b : Polygon}
    (va : ValidPolygon a) (vb : ValidPolygon b) : ∃ g, symmetricSubtractPolygons tb a b = .ok g ∧
      CornersOnly a.edges b.edges g.polygons := by
  have := holeySymmetricDifference_corners (polygonOperand_ok va) (polygonOperand_ok vb) tb
  simp only [polygonOperand, List.flatMap_cons, List.flatMap_nil, List.append_nil] at this
  exact this

/-- **C53** `symmetric_subtract_multipolygon_from_polygon` -/
theorem symmetricSubtractMultipolygonFromPolygon_corners (tb : TieBreak) {a : Polygon} {b : List Polygon}
    (va : ValidPolygon a) (nb : b ≠ []) (vb : ValidPolygons b) : ∃ g, symmetricSubtractMultipolygonFromPolygon tb a b = .ok g ∧
      CornersOnly a.edges (b.flatMap Polygon.edges) g.polygons := by
  have := holeySymmetricDifference_corners (polygonOperand_ok va) (multipolygonOperand_ok nb vb) tb
  simp only [polygonOperand, List.flatMap_cons, List.flatMap_nil, List.append_nil] at this
  exact this

/-- **C53** `symmetric_subtract_multipolygons` -/
theorem symmetricSubtractMultipolygons_corners (tb : TieBreak) {a : List Polygon} {b : List Polygon}
    (na : a ≠ []) (va : ValidPolygons a) (nb : b ≠ []) (vb : ValidPolygons b) : ∃ g, symmetricSubtractMultipolygons tb a b = .ok g ∧
      CornersOnly (a.flatMap Polygon.edges) (b.flatMap Polygon.edges) g.polygons := by
  have := holeySymmetricDifference_corners (multipolygonOperand_ok na va) (multipolygonOperand_ok nb vb) tb
  exact this

/-- **C53** `unite_polygons` -/
theorem unitePolygons_corners (tb : TieBreak) {a : Polygon} {b : Polygon}
    (va : ValidPolygon a) (vb : ValidPolygon b) : ∃ g, unitePolygons tb a b = .ok g ∧
      CornersOnly a.edges b.edges g.polygons := by
  have := holeyUnion_corners (polygonOperand_ok va) (polygonOperand_ok vb) tb
  simp only [polygonOperand, List.flatMap_cons, List.flatMap_nil, List.append_nil] at this
  exact this

/-- **C53** `unite_polygon_with_multipolygon` -/
theorem unitePolygonWithMultipolygon_corners (tb : TieBreak) {a : Polygon} {b : List Polygon}
    (va : ValidPolygon a) (nb : b ≠ []) (vb : ValidPolygons b) : ∃ g, unitePolygonWithMultipolygon tb a b = .ok g ∧
      CornersOnly a.edges (b.flatMap Polygon.edges) g.polygons := by
  have := holeyUnion_corners (polygonOperand_ok va) (multipolygonOperand_ok nb vb) tb
  simp only [polygonOperand, List.flatMap_cons, List.flatMap_nil, List.append_nil] at this
  exact this

/-- **C53** `unite_multipolygons` -/
theorem uniteMultipolygons_corners (tb : TieBreak) {a : List Polygon} {b : List Polygon}
    (na : a ≠ []) (va : ValidPolygons a) (nb : b ≠ []) (vb : ValidPolygons b) : ∃ g, uniteMultipolygons tb a b = .ok g ∧
      CornersOnly (a.flatMap Polygon.edges) (b.flatMap Polygon.edges) g.polygons := by
  have := holeyUnion_corners (multipolygonOperand_ok na va) (multipolygonOperand_ok nb vb) tb
  exact this

/-! ## Regions -/

/-- **C53** `intersect_regions` -/
theorem intersectRegions_corners {o : Orient} (ok : OrientOk o) (tb : TieBreak) {a : Contour} {b : Contour}
    (va : SimpleContour a) (vb : SimpleContour b) : ∃ g, intersectRegions o tb a b = .ok g ∧
      CornersOnly a.edges b.edges g.polygons := by
  have := holelessIntersection_corners ok tb (P := [a]) (Q := [b]) (by simp) (validRegions_single va) (by simp) (validRegions_single vb)
  simp only [List.flatMap_cons, List.flatMap_nil, List.append_nil] at this
  exact this

/-- **C53** `intersect_region_with_multiregion` -/
theorem intersectRegionWithMultiregion_corners {o : Orient} (ok : OrientOk o) (tb : TieBreak) {a : Contour} {b : List Contour}
    (va : SimpleContour a) (nb : b ≠ []) (vb : ValidRegions b) : ∃ g, intersectRegionWithMultiregion o tb a b = .ok g ∧
      CornersOnly a.edges (b.flatMap Contour.edges) g.polygons := by
  have := holelessIntersection_corners ok tb (P := [a]) (Q := b) (by simp) (validRegions_single va) nb vb
  simp only [List.flatMap_cons, List.flatMap_nil, List.append_nil] at this
  exact this

/-- **C53** `intersect_multiregions` -/
theorem intersectMultiregions_corners {o : Orient} (ok : OrientOk o) (tb : TieBreak) {a : List Contour} {b : List Contour}
    (na : a ≠ []) (va : ValidRegions a) (nb : b ≠ []) (vb : ValidRegions b) : ∃ g, intersectMultiregions o tb a b = .ok g ∧
      CornersOnly (a.flatMap Contour.edges) (b.flatMap Contour.edges) g.polygons := by
  have := holelessIntersection_corners ok tb (P := a) (Q := b) na va nb vb
  exact this

/-- **C53** `complete_intersect_regions` -/
theorem completeIntersectRegions_corners {o : Orient} (ok : OrientOk o) (tb : TieBreak) {a : Contour} {b : Contour}
    (va : SimpleContour a) (vb : SimpleContour b) : ∃ g, completeIntersectRegions o tb a b = .ok g ∧
      CornersOnly a.edges b.edges g.shapedPolygons ∧
      (∀ t ∈ g.linearSegments, ∀ v, t.IsEnd v → IsCorner a.edges b.edges v) ∧
      ∀ v ∈ g.discretePoints, IsCorner a.edges b.edges v := by
  have := holelessCompleteIntersection_corners ok tb (P := [a]) (Q := [b]) (by simp) (validRegions_single va) (by simp) (validRegions_single vb)
  simp only [List.flatMap_cons, List.flatMap_nil, List.append_nil] at this
  exact this

/-- **C53** `complete_intersect_region_with_multiregion` -/
theorem completeIntersectRegionWithMultiregion_corners {o : Orient} (ok : OrientOk o) (tb : TieBreak) {a : Contour} {b : List Contour}
    (va : SimpleContour a) (nb : b ≠ []) (vb : ValidRegions b) : ∃ g, completeIntersectRegionWithMultiregion o tb a b = .ok g ∧
      CornersOnly a.edges (b.flatMap Contour.edges) g.shapedPolygons ∧
      (∀ t ∈ g.linearSegments, ∀ v, t.IsEnd v → IsCorner a.edges (b.flatMap Contour.edges) v) ∧
      ∀ v ∈ g.discretePoints, IsCorner a.edges (b.flatMap Contour.edges) v := by
  have := holelessCompleteIntersection_corners ok tb (P := [a]) (Q := b) (by simp) (validRegions_single va) nb vb
  simp only [List.flatMap_cons, List.flatMap_nil, List.append_nil] at this
  exact this

/-- **C53** `complete_intersect_multiregions` -/
theorem completeIntersectMultiregions_corners {o : Orient} (ok : OrientOk o) (tb : TieBreak) {a : List Contour} {b : List Contour}
    (na : a ≠ []) (va : ValidRegions a) (nb : b ≠ []) (vb : ValidRegions b) : ∃ g, completeIntersectMultiregions o tb a b = .ok g ∧
      CornersOnly (a.flatMap Contour.edges) (b.flatMap Contour.edges) g.shapedPolygons ∧
      (∀ t ∈ g.linearSegments, ∀ v, t.IsEnd v → IsCorner (a.flatMap Contour.edges) (b.flatMap Contour.edges) v) ∧
      ∀ v ∈ g.discretePoints, IsCorner (a.flatMap Contour.edges) (b.flatMap Contour.edges) v := by
  have := holelessCompleteIntersection_corners ok tb (P := a) (Q := b) na va nb vb
  exact this

/-! ## Examples -/

/-- The frames of the examples of `Properties/Shaped.lean` meet the hypotheses. -/
example : ∃ g, uniteMultipolygons TieBreak.id exFrame exFrame' = .ok g ∧
    CornersOnly (exFrame.flatMap Polygon.edges) (exFrame'.flatMap Polygon.edges) g.polygons :=
  uniteMultipolygons_corners _ (by simp [exFrame]) exFrame_valid (by simp [exFrame']) exFrame'_valid

/-- Two squares whose edges cross in `(1, 2)` and `(2, 1)`: these are vertices of the union. -/
example : unitePolygons TieBreak.id ⟨squareContour 0 0 2, []⟩ ⟨squareContour 1 1 2, []⟩ =
    .ok (.polygon ⟨⟨[⟨0, 0⟩, ⟨2, 0⟩, ⟨2, 1⟩, ⟨3, 1⟩, ⟨3, 3⟩, ⟨1, 3⟩, ⟨1, 2⟩, ⟨0, 2⟩]⟩, []⟩) := by decide +kernel

/-- Not every point of an edge is such a place. -/
example : ¬ IsCorner (squareContour 0 0 2).edges (squareContour 1 1 2).edges ⟨1, 0⟩ := by
  have no : ∀ t ∈ (squareContour 1 1 2).edges, (⟨1, 0⟩ : Point) ∉ t.pts := by
    have : (squareContour 1 1 2).edges = [⟨⟨1, 1⟩, ⟨3, 1⟩⟩, ⟨⟨3, 1⟩, ⟨3, 3⟩⟩, ⟨⟨3, 3⟩, ⟨1, 3⟩⟩, ⟨⟨1, 3⟩, ⟨1, 1⟩⟩] := by decide +kernel
    rw [this]
    simp only [List.mem_cons, List.not_mem_nil, or_false, forall_eq_or_imp, forall_eq]
    refine ⟨?_, ?_, ?_, ?_⟩ <;> rintro ⟨a, a0, a1, ax, ay⟩ <;> simp only at ax ay <;> linarith
  rintro (⟨s, hs, e⟩ | ⟨s, -, t, ht, e⟩)
  · have : ∀ s ∈ (squareContour 0 0 2).edges ++ (squareContour 1 1 2).edges, ¬ ((⟨1, 0⟩ : Point) = s.start ∨ (⟨1, 0⟩ : Point) = s.stop) := by
      decide +kernel
    exact this s hs e
  · have : (⟨1, 0⟩ : Point) ∈ s.pts ∩ t.pts := by rw [e]; rfl
    exact no t ht this.2

end Clipping
