import Verif.Lemmas.Size
import Verif.Properties.Corners
import Verif.Properties.Nary

/-!
# C71: size of results

Two segments meet in at most one place where something begins or ends.  So a result on multisegments has at most as many segments, and a
result on polygons, multipolygons, regions and multiregions at most as many vertices, as there are ordered pairs of segments or edges of the
operands with a common point (`contacts`, `Spec/Contacts.lean`; each makes a pair with itself).  This is at most the square of their number
(`contacts_le`), it is linear if few of them meet, and it is attained.
-/

namespace Clipping

/-! ## Multisegments -/

theorem length_le_sum {a b : List Segment} {ba bb : Box} (ha : boxOf a = .ok ba) (hb : boxOf b = .ok bb) (na : NoOverlap a)
    (nb : NoOverlap b) (h : disjointWith ba bb = true) : (sortEndpoints (a ++ b)).length ≤ contacts (a ++ b) := by
  rw [(sortEndpoints_perm _).length_eq]
  exact length_le_contacts (noOverlap_of_disjoint na nb (disjoint_boxes ha hb h)).nodup

/-- **C71** `unite_multisegments`, `symmetric_subtract_multisegments`, `subtract_multisegments` and `intersect_multisegments` return at most
as many segments as there are pairs of segments of the operands which meet. -/
theorem multisegment_operations_size (tb : TieBreak) {a b : List Segment} (ha : a ≠ []) (hb : b ≠ []) (na : NoOverlap a) (nb : NoOverlap b) :
    (∃ g, uniteMultisegments tb a b = .ok g ∧ g.linearSegments.length ≤ contacts (a ++ b)) ∧
    (∃ g, symmetricSubtractMultisegments tb a b = .ok g ∧ g.linearSegments.length ≤ contacts (a ++ b)) ∧
    (∃ g, subtractMultisegments tb a b = .ok g ∧ g.linearSegments.length ≤ contacts (a ++ b)) ∧
    (∃ g, intersectMultisegments tb a b = .ok g ∧ g.linearSegments.length ≤ contacts (a ++ b)) := by
  obtain ⟨ba, h1⟩ := boxOf_ok ha
  obtain ⟨bb, h2⟩ := boxOf_ok hb
  have pr : ∀ s ∈ a ++ b, s.Proper := fun s hs => (List.mem_append.1 hs).elim (na.1 s) (nb.1 s)
  have part : ∀ {l r : List Segment}, l ⊆ a ++ b → Ascending r → (∀ e ∈ r, IsEdge l e) → r.length ≤ contacts (a ++ b) :=
    fun hl hr he => (IsEdge.length_le (fun s hs => pr s (hl hs)) hr.nodup he).trans (contacts_mono hl)
  have un : ∀ r : List Segment, (unpackSegments r).linearSegments = r := fun r => (unpackSegments_linear r).2.1
  refine ⟨?_, ?_, ?_, ?_⟩
  · rcases linearUnion_edges tb h1 h2 na nb with ⟨hd, e⟩ | ⟨-, l, e, al, hl⟩
    · exact ⟨_, e, length_le_sum h1 h2 na nb hd⟩
    · exact ⟨_, e, part (fun _ h => h) al fun x hx => (hl x).1 hx⟩
  · rcases linearSymmetricDifference_edges tb h1 h2 na nb with ⟨hd, e⟩ | ⟨-, l, e, al, hl⟩
    · exact ⟨_, e, length_le_sum h1 h2 na nb hd⟩
    · exact ⟨_, e, by rw [un]; exact part (fun _ h => h) al fun x hx => ((hl x).1 hx).1⟩
  · rcases linearDifference_edges tb h1 h2 na nb with ⟨-, e⟩ | ⟨-, -, l, e, al, hl⟩
    · exact ⟨_, e, (length_le_contacts na.nodup).trans (contacts_mono (List.subset_append_left _ _))⟩
    · refine ⟨_, e, ?_⟩
      rw [un]
      refine part (fun s hs => ?_) al fun x hx => ((hl x).1 hx).1
      exact List.mem_append.2 ((List.mem_append.1 hs).imp id fun h => (coupled_sub _ _).subset h)
  · obtain ⟨l, e, al, hl⟩ := linearIntersection_edges tb h1 h2 na nb
    refine ⟨_, e, ?_⟩
    rw [un]
    refine part (fun s hs => ?_) al fun x hx => ((hl x).1 hx).2.2.2.1
    exact List.mem_append.2 ((List.mem_append.1 hs).imp (fun h => (coupled_sub _ _).subset h) fun h => (coupled_sub _ _).subset h)

/-- **C71** `segments_to_multisegment` returns at most as many segments as there are pairs of given segments which meet. -/
theorem segments_to_multisegment_size (B : Balancing) (tb : TieBreak) {l : List Segment} (hl : NoOverlap l) :
    ∃ g, segmentsToMultisegment B tb l = .ok g ∧ g.linearSegments.length ≤ contacts l := by
  obtain ⟨g, e, -, -, -, -, al, h⟩ := segments_to_multisegment_partial B tb hl
  exact ⟨g, e, IsEdge.length_le hl.1 al.nodup fun x hx => (h x).1 hx⟩

/-- **C71** In figures: at most the square of the number of all segments. -/
theorem contacts_le_square (a b : List Segment) : contacts (a ++ b) ≤ (a.length + b.length) ^ 2 := by
  have := contacts_le (a ++ b)
  rwa [List.length_append] at this

/-! ## Operations in general -/

theorem both_edges_proper {P Q : List Polygon} (hP : ValidPolygons P) (hQ : ValidPolygons Q) :
    ∀ s ∈ P.flatMap Polygon.edges ++ Q.flatMap Polygon.edges, s.Proper :=
  fun s hs => (List.mem_append.1 hs).elim (hP.noOverlap.1 s) (hQ.noOverlap.1 s)

theorem holeyIntersection_size {o : Orient} (ok : OrientOk o) {a b : ShapedOperand} (ha : ShapedOk a) (hb : ShapedOk b) (tb : TieBreak) :
    ∃ g, holeyIntersection o tb a b = .ok g ∧
      vertexCount g.polygons ≤ contacts (a.polygons.flatMap Polygon.edges ++ b.polygons.flatMap Polygon.edges) := by
  obtain ⟨g, e, -, O, -⟩ := holeyIntersection_outlines ok ha hb tb
  obtain ⟨g', e', C⟩ := holeyIntersection_corners ok ha hb tb
  cases e.symm.trans e'
  exact ⟨g, e, O.size (both_edges_proper ha.valid hb.valid) C⟩

theorem holeyDifference_size {o : Orient} (ok : OrientOk o) {a b : ShapedOperand} (ha : ShapedOk a) (hb : ShapedOk b) (tb : TieBreak)
    (hv : a.value.polygons = a.polygons) (hs : a.value.IsShaped) :
    ∃ g, holeyDifference o tb a b = .ok g ∧
      vertexCount g.polygons ≤ contacts (a.polygons.flatMap Polygon.edges ++ b.polygons.flatMap Polygon.edges) := by
  obtain ⟨g, e, -, O, -⟩ := holeyDifference_outlines ok ha hb tb hv hs
  obtain ⟨g', e', C⟩ := holeyDifference_corners ok ha hb tb hv hs
  cases e.symm.trans e'
  exact ⟨g, e, O.size (both_edges_proper ha.valid hb.valid) C⟩

theorem holeySymmetricDifference_size {a b : ShapedOperand} (ha : ShapedOk a) (hb : ShapedOk b) (tb : TieBreak) :
    ∃ g, holeySymmetricDifference tb a b = .ok g ∧
      vertexCount g.polygons ≤ contacts (a.polygons.flatMap Polygon.edges ++ b.polygons.flatMap Polygon.edges) := by
  obtain ⟨g, e, -, O, -⟩ := holeySymmetricDifference_outlines ha hb tb
  obtain ⟨g', e', C⟩ := holeySymmetricDifference_corners ha hb tb
  cases e.symm.trans e'
  exact ⟨g, e, O.size (both_edges_proper ha.valid hb.valid) C⟩

theorem holeyUnion_size {a b : ShapedOperand} (ha : ShapedOk a) (hb : ShapedOk b) (tb : TieBreak) :
    ∃ g, holeyUnion tb a b = .ok g ∧
      vertexCount g.polygons ≤ contacts (a.polygons.flatMap Polygon.edges ++ b.polygons.flatMap Polygon.edges) := by
  obtain ⟨g, e, -, O, -⟩ := holeyUnion_outlines ha hb tb
  obtain ⟨g', e', C⟩ := holeyUnion_corners ha hb tb
  cases e.symm.trans e'
  exact ⟨g, e, O.size (both_edges_proper ha.valid hb.valid) C⟩

theorem holeyCompleteIntersection_size {o : Orient} (ok : OrientOk o) {a b : ShapedOperand} (ha : ShapedOk a) (hb : ShapedOk b) (tb : TieBreak) :
    ∃ g, holeyCompleteIntersection o tb a b = .ok g ∧
      vertexCount g.shapedPolygons ≤ contacts (a.polygons.flatMap Polygon.edges ++ b.polygons.flatMap Polygon.edges) := by
  obtain ⟨g, e, -, O, -⟩ := holeyCompleteIntersection_parts ok ha hb tb
  obtain ⟨g', e', C, -, -⟩ := holeyCompleteIntersection_corners ok ha hb tb
  cases e.symm.trans e'
  exact ⟨g, e, O.size (both_edges_proper ha.valid hb.valid) C⟩

theorem holelessIntersection_size {o : Orient} (ok : OrientOk o) (tb : TieBreak) {P Q : List Contour} (nP : P ≠ [])
    (hP : ValidRegions P) (nQ : Q ≠ []) (hQ : ValidRegions Q) : ∃ g, holelessIntersection o tb P Q = .ok g ∧
      vertexCount g.polygons ≤ contacts (P.flatMap Contour.edges ++ Q.flatMap Contour.edges) := by
  obtain ⟨cs, e, O, -, -⟩ := holelessIntersection_outlines ok hP.polygons hQ.polygons nP nQ tb
  obtain ⟨g, e', C⟩ := holelessIntersection_corners ok tb nP hP nQ hQ
  cases e.symm.trans e'
  have pr := both_edges_proper hP.polygons hQ.polygons
  rw [Selected.RegionsInv.flatMap_edges, Selected.RegionsInv.flatMap_edges] at O pr
  refine ⟨_, e, ?_⟩
  rw [unpackRegions_eq, unpackPolygons_polygons] at C ⊢
  exact O.size pr C

theorem holelessCompleteIntersection_size {o : Orient} (ok : OrientOk o) (tb : TieBreak) {P Q : List Contour} (nP : P ≠ [])
    (hP : ValidRegions P) (nQ : Q ≠ []) (hQ : ValidRegions Q) : ∃ g, holelessCompleteIntersection o tb P Q = .ok g ∧
      vertexCount g.shapedPolygons ≤ contacts (P.flatMap Contour.edges ++ Q.flatMap Contour.edges) := by
  obtain ⟨g, e, -, O, -⟩ := holelessCompleteIntersection_parts ok hP.polygons hQ.polygons nP nQ tb
  obtain ⟨g', e', C, -, -⟩ := holelessCompleteIntersection_corners ok tb nP hP nQ hQ
  cases e.symm.trans e'
  have pr := both_edges_proper hP.polygons hQ.polygons
  rw [Selected.RegionsInv.flatMap_edges, Selected.RegionsInv.flatMap_edges] at O pr
  exact ⟨_, e, O.size pr C⟩

/-! ## Polygons -/

/-- **C71** `intersect_polygons` -/
theorem intersectPolygons_size {o : Orient} (ok : OrientOk o) (tb : TieBreak) {a : Polygon} {b : Polygon}
    (va : ValidPolygon a) (vb : ValidPolygon b) : ∃ g, intersectPolygons o tb a b = .ok g ∧
      vertexCount g.polygons ≤ contacts (a.edges ++ b.edges) := by
  have := holeyIntersection_size ok (polygonOperand_ok va) (polygonOperand_ok vb) tb
  simp only [polygonOperand, List.flatMap_cons, List.flatMap_nil, List.append_nil] at this
  exact this

/-- **C71** `intersect_polygon_with_multipolygon` -/
theorem intersectPolygonWithMultipolygon_size {o : Orient} (ok : OrientOk o) (tb : TieBreak) {a : Polygon} {b : List Polygon}
    (va : ValidPolygon a) (nb : b ≠ []) (vb : ValidPolygons b) : ∃ g, intersectPolygonWithMultipolygon o tb a b = .ok g ∧
      vertexCount g.polygons ≤ contacts (a.edges ++ b.flatMap Polygon.edges) := by
  have := holeyIntersection_size ok (polygonOperand_ok va) (multipolygonOperand_ok nb vb) tb
  simp only [polygonOperand, List.flatMap_cons, List.flatMap_nil, List.append_nil] at this
  exact this

/-- **C71** `intersect_multipolygons` -/
theorem intersectMultipolygons_size {o : Orient} (ok : OrientOk o) (tb : TieBreak) {a : List Polygon} {b : List Polygon}
    (na : a ≠ []) (va : ValidPolygons a) (nb : b ≠ []) (vb : ValidPolygons b) : ∃ g, intersectMultipolygons o tb a b = .ok g ∧
      vertexCount g.polygons ≤ contacts (a.flatMap Polygon.edges ++ b.flatMap Polygon.edges) := by
  have := holeyIntersection_size ok (multipolygonOperand_ok na va) (multipolygonOperand_ok nb vb) tb
  exact this

/-- **C71** `complete_intersect_polygons` -/
theorem completeIntersectPolygons_size {o : Orient} (ok : OrientOk o) (tb : TieBreak) {a : Polygon} {b : Polygon}
    (va : ValidPolygon a) (vb : ValidPolygon b) : ∃ g, completeIntersectPolygons o tb a b = .ok g ∧
      vertexCount g.shapedPolygons ≤ contacts (a.edges ++ b.edges) := by
  have := holeyCompleteIntersection_size ok (polygonOperand_ok va) (polygonOperand_ok vb) tb
  simp only [polygonOperand, List.flatMap_cons, List.flatMap_nil, List.append_nil] at this
  exact this

/-- **C71** `complete_intersect_polygon_with_multipolygon` -/
theorem completeIntersectPolygonWithMultipolygon_size {o : Orient} (ok : OrientOk o) (tb : TieBreak) {a : Polygon} {b : List Polygon}
    (va : ValidPolygon a) (nb : b ≠ []) (vb : ValidPolygons b) : ∃ g, completeIntersectPolygonWithMultipolygon o tb a b = .ok g ∧
      vertexCount g.shapedPolygons ≤ contacts (a.edges ++ b.flatMap Polygon.edges) := by
  have := holeyCompleteIntersection_size ok (polygonOperand_ok va) (multipolygonOperand_ok nb vb) tb
  simp only [polygonOperand, List.flatMap_cons, List.flatMap_nil, List.append_nil] at this
  exact this

/-- **C71** `complete_intersect_multipolygons` -/
theorem completeIntersectMultipolygons_size {o : Orient} (ok : OrientOk o) (tb : TieBreak) {a : List Polygon} {b : List Polygon}
    (na : a ≠ []) (va : ValidPolygons a) (nb : b ≠ []) (vb : ValidPolygons b) : ∃ g, completeIntersectMultipolygons o tb a b = .ok g ∧
      vertexCount g.shapedPolygons ≤ contacts (a.flatMap Polygon.edges ++ b.flatMap Polygon.edges) := by
  have := holeyCompleteIntersection_size ok (multipolygonOperand_ok na va) (multipolygonOperand_ok nb vb) tb
  exact this

/-- **C71** `subtract_polygons` -/
theorem subtractPolygons_size {o : Orient} (ok : OrientOk o) (tb : TieBreak) {a : Polygon} {b : Polygon}
    (va : ValidPolygon a) (vb : ValidPolygon b) : ∃ g, subtractPolygons o tb a b = .ok g ∧
      vertexCount g.polygons ≤ contacts (a.edges ++ b.edges) := by
  have := holeyDifference_size ok (polygonOperand_ok va) (polygonOperand_ok vb) tb rfl trivial
  simp only [polygonOperand, List.flatMap_cons, List.flatMap_nil, List.append_nil] at this
  exact this

/-- **C71** `subtract_multipolygon_from_polygon` -/
theorem subtractMultipolygonFromPolygon_size {o : Orient} (ok : OrientOk o) (tb : TieBreak) {a : Polygon} {b : List Polygon}
    (va : ValidPolygon a) (nb : b ≠ []) (vb : ValidPolygons b) : ∃ g, subtractMultipolygonFromPolygon o tb a b = .ok g ∧
      vertexCount g.polygons ≤ contacts (a.edges ++ b.flatMap Polygon.edges) := by
  have := holeyDifference_size ok (polygonOperand_ok va) (multipolygonOperand_ok nb vb) tb rfl trivial
  simp only [polygonOperand, List.flatMap_cons, List.flatMap_nil, List.append_nil] at this
  exact this

/-- **C71** `subtract_polygon_from_multipolygon` -/
theorem subtractPolygonFromMultipolygon_size {o : Orient} (ok : OrientOk o) (tb : TieBreak) {a : List Polygon} {b : Polygon}
    (na : a ≠ []) (va : ValidPolygons a) (vb : ValidPolygon b) : ∃ g, subtractPolygonFromMultipolygon o tb a b = .ok g ∧
      vertexCount g.polygons ≤ contacts (a.flatMap Polygon.edges ++ b.edges) := by
  have := holeyDifference_size ok (multipolygonOperand_ok na va) (polygonOperand_ok vb) tb rfl na
  simp only [polygonOperand, List.flatMap_cons, List.flatMap_nil, List.append_nil] at this
  exact this

/-- **C71** `subtract_multipolygons` -/
theorem subtractMultipolygons_size {o : Orient} (ok : OrientOk o) (tb : TieBreak) {a : List Polygon} {b : List Polygon}
    (na : a ≠ []) (va : ValidPolygons a) (nb : b ≠ []) (vb : ValidPolygons b) : ∃ g, subtractMultipolygons o tb a b = .ok g ∧
      vertexCount g.polygons ≤ contacts (a.flatMap Polygon.edges ++ b.flatMap Polygon.edges) := by
  have := holeyDifference_size ok (multipolygonOperand_ok na va) (multipolygonOperand_ok nb vb) tb rfl na
  exact this

/-- **C71** `symmetric_subtract_polygons` -/
theorem symmetricSubtractPolygons_size (tb : TieBreak) {a : Polygon} {b : Polygon}
    (va : ValidPolygon a) (vb : ValidPolygon b) : ∃ g, symmetricSubtractPolygons tb a b = .ok g ∧
      vertexCount g.polygons ≤ contacts (a.edges ++ b.edges) := by
  have := holeySymmetricDifference_size (polygonOperand_ok va) (polygonOperand_ok vb) tb
  simp only [polygonOperand, List.flatMap_cons, List.flatMap_nil, List.append_nil] at this
  exact this

/-- **C71** `symmetric_subtract_multipolygon_from_polygon` -/
theorem symmetricSubtractMultipolygonFromPolygon_size (tb : TieBreak) {a : Polygon} {b : List Polygon}
    (va : ValidPolygon a) (nb : b ≠ []) (vb : ValidPolygons b) : ∃ g, symmetricSubtractMultipolygonFromPolygon tb a b = .ok g ∧
      vertexCount g.polygons ≤ contacts (a.edges ++ b.flatMap Polygon.edges) := by
  have := holeySymmetricDifference_size (polygonOperand_ok va) (multipolygonOperand_ok nb vb) tb
  simp only [polygonOperand, List.flatMap_cons, List.flatMap_nil, List.append_nil] at this
  exact this

/-- **C71** `symmetric_subtract_multipolygons` -/
theorem symmetricSubtractMultipolygons_size (tb : TieBreak) {a : List Polygon} {b : List Polygon}
    (na : a ≠ []) (va : ValidPolygons a) (nb : b ≠ []) (vb : ValidPolygons b) : ∃ g, symmetricSubtractMultipolygons tb a b = .ok g ∧
      vertexCount g.polygons ≤ contacts (a.flatMap Polygon.edges ++ b.flatMap Polygon.edges) := by
  have := holeySymmetricDifference_size (multipolygonOperand_ok na va) (multipolygonOperand_ok nb vb) tb
  exact this

/-- **C71** `unite_polygons` -/
theorem unitePolygons_size (tb : TieBreak) {a : Polygon} {b : Polygon}
    (va : ValidPolygon a) (vb : ValidPolygon b) : ∃ g, unitePolygons tb a b = .ok g ∧
      vertexCount g.polygons ≤ contacts (a.edges ++ b.edges) := by
  have := holeyUnion_size (polygonOperand_ok va) (polygonOperand_ok vb) tb
  simp only [polygonOperand, List.flatMap_cons, List.flatMap_nil, List.append_nil] at this
  exact this

/-- **C71** `unite_polygon_with_multipolygon` -/
theorem unitePolygonWithMultipolygon_size (tb : TieBreak) {a : Polygon} {b : List Polygon}
    (va : ValidPolygon a) (nb : b ≠ []) (vb : ValidPolygons b) : ∃ g, unitePolygonWithMultipolygon tb a b = .ok g ∧
      vertexCount g.polygons ≤ contacts (a.edges ++ b.flatMap Polygon.edges) := by
  have := holeyUnion_size (polygonOperand_ok va) (multipolygonOperand_ok nb vb) tb
  simp only [polygonOperand, List.flatMap_cons, List.flatMap_nil, List.append_nil] at this
  exact this

/-- **C71** `unite_multipolygons` -/
theorem uniteMultipolygons_size (tb : TieBreak) {a : List Polygon} {b : List Polygon}
    (na : a ≠ []) (va : ValidPolygons a) (nb : b ≠ []) (vb : ValidPolygons b) : ∃ g, uniteMultipolygons tb a b = .ok g ∧
      vertexCount g.polygons ≤ contacts (a.flatMap Polygon.edges ++ b.flatMap Polygon.edges) := by
  have := holeyUnion_size (multipolygonOperand_ok na va) (multipolygonOperand_ok nb vb) tb
  exact this

/-! ## Regions -/

/-- **C71** `intersect_regions` -/
theorem intersectRegions_size {o : Orient} (ok : OrientOk o) (tb : TieBreak) {a : Contour} {b : Contour}
    (va : SimpleContour a) (vb : SimpleContour b) : ∃ g, intersectRegions o tb a b = .ok g ∧
      vertexCount g.polygons ≤ contacts (a.edges ++ b.edges) := by
  have := holelessIntersection_size ok tb (P := [a]) (Q := [b]) (by simp) (validRegions_single va) (by simp) (validRegions_single vb)
  simp only [List.flatMap_cons, List.flatMap_nil, List.append_nil] at this
  exact this

/-- **C71** `intersect_region_with_multiregion` -/
theorem intersectRegionWithMultiregion_size {o : Orient} (ok : OrientOk o) (tb : TieBreak) {a : Contour} {b : List Contour}
    (va : SimpleContour a) (nb : b ≠ []) (vb : ValidRegions b) : ∃ g, intersectRegionWithMultiregion o tb a b = .ok g ∧
      vertexCount g.polygons ≤ contacts (a.edges ++ b.flatMap Contour.edges) := by
  have := holelessIntersection_size ok tb (P := [a]) (Q := b) (by simp) (validRegions_single va) nb vb
  simp only [List.flatMap_cons, List.flatMap_nil, List.append_nil] at this
  exact this

/-- **C71** `intersect_multiregions` -/
theorem intersectMultiregions_size {o : Orient} (ok : OrientOk o) (tb : TieBreak) {a : List Contour} {b : List Contour}
    (na : a ≠ []) (va : ValidRegions a) (nb : b ≠ []) (vb : ValidRegions b) : ∃ g, intersectMultiregions o tb a b = .ok g ∧
      vertexCount g.polygons ≤ contacts (a.flatMap Contour.edges ++ b.flatMap Contour.edges) := by
  have := holelessIntersection_size ok tb (P := a) (Q := b) na va nb vb
  exact this

/-- **C71** `complete_intersect_regions` -/
theorem completeIntersectRegions_size {o : Orient} (ok : OrientOk o) (tb : TieBreak) {a : Contour} {b : Contour}
    (va : SimpleContour a) (vb : SimpleContour b) : ∃ g, completeIntersectRegions o tb a b = .ok g ∧
      vertexCount g.shapedPolygons ≤ contacts (a.edges ++ b.edges) := by
  have := holelessCompleteIntersection_size ok tb (P := [a]) (Q := [b]) (by simp) (validRegions_single va) (by simp) (validRegions_single vb)
  simp only [List.flatMap_cons, List.flatMap_nil, List.append_nil] at this
  exact this

/-- **C71** `complete_intersect_region_with_multiregion` -/
theorem completeIntersectRegionWithMultiregion_size {o : Orient} (ok : OrientOk o) (tb : TieBreak) {a : Contour} {b : List Contour}
    (va : SimpleContour a) (nb : b ≠ []) (vb : ValidRegions b) : ∃ g, completeIntersectRegionWithMultiregion o tb a b = .ok g ∧
      vertexCount g.shapedPolygons ≤ contacts (a.edges ++ b.flatMap Contour.edges) := by
  have := holelessCompleteIntersection_size ok tb (P := [a]) (Q := b) (by simp) (validRegions_single va) nb vb
  simp only [List.flatMap_cons, List.flatMap_nil, List.append_nil] at this
  exact this

/-- **C71** `complete_intersect_multiregions` -/
theorem completeIntersectMultiregions_size {o : Orient} (ok : OrientOk o) (tb : TieBreak) {a : List Contour} {b : List Contour}
    (na : a ≠ []) (va : ValidRegions a) (nb : b ≠ []) (vb : ValidRegions b) : ∃ g, completeIntersectMultiregions o tb a b = .ok g ∧
      vertexCount g.shapedPolygons ≤ contacts (a.flatMap Contour.edges ++ b.flatMap Contour.edges) := by
  have := holelessCompleteIntersection_size ok tb (P := a) (Q := b) na va nb vb
  exact this

/-! ## Examples -/

/-- Two segments which cross have four contacts and four pieces: the bound is attained. -/
example : uniteMultisegments TieBreak.id [⟨⟨0, 0⟩, ⟨2, 2⟩⟩] [⟨⟨0, 2⟩, ⟨2, 0⟩⟩] =
    .ok (.multisegment [⟨⟨0, 0⟩, ⟨1, 1⟩⟩, ⟨⟨0, 2⟩, ⟨1, 1⟩⟩, ⟨⟨1, 1⟩, ⟨2, 0⟩⟩, ⟨⟨1, 1⟩, ⟨2, 2⟩⟩]) ∧
    contacts [(⟨⟨0, 0⟩, ⟨2, 2⟩⟩ : Segment), ⟨⟨0, 2⟩, ⟨2, 0⟩⟩] = 4 := by
  have e : uniteMultisegments TieBreak.id [⟨⟨0, 0⟩, ⟨2, 2⟩⟩] [⟨⟨0, 2⟩, ⟨2, 0⟩⟩] =
      .ok (.multisegment [⟨⟨0, 0⟩, ⟨1, 1⟩⟩, ⟨⟨0, 2⟩, ⟨1, 1⟩⟩, ⟨⟨1, 1⟩, ⟨2, 0⟩⟩, ⟨⟨1, 1⟩, ⟨2, 2⟩⟩]) := by decide +kernel
  refine ⟨e, le_antisymm (contacts_le _) ?_⟩
  have one : ∀ s : Segment, s.Proper → NoOverlap [s] := fun s hs => ⟨by simpa using hs, List.pairwise_singleton _ _⟩
  obtain ⟨⟨g, h1, h2⟩, -⟩ := multisegment_operations_size TieBreak.id (a := [⟨⟨0, 0⟩, ⟨2, 2⟩⟩]) (b := [⟨⟨0, 2⟩, ⟨2, 0⟩⟩]) (by simp) (by simp)
    (one _ (by decide +kernel)) (one _ (by decide +kernel))
  cases e.symm.trans h1
  exact h2

/-- The frames of the examples of `Properties/Shaped.lean` meet the hypotheses. -/
example : ∃ g, symmetricSubtractMultipolygons TieBreak.id exFrame exFrame' = .ok g ∧
    vertexCount g.polygons ≤ contacts (exFrame.flatMap Polygon.edges ++ exFrame'.flatMap Polygon.edges) :=
  symmetricSubtractMultipolygons_size _ (by simp [exFrame]) exFrame_valid (by simp [exFrame']) exFrame'_valid

/-- Two squares with two crossings: the union has eight vertices. -/
example : ∃ g, unitePolygons TieBreak.id ⟨squareContour 0 0 2, []⟩ ⟨squareContour 1 1 2, []⟩ = .ok g ∧ vertexCount g.polygons = 8 :=
  ⟨_, show unitePolygons TieBreak.id ⟨squareContour 0 0 2, []⟩ ⟨squareContour 1 1 2, []⟩ =
    .ok (.polygon ⟨⟨[⟨0, 0⟩, ⟨2, 0⟩, ⟨2, 1⟩, ⟨3, 1⟩, ⟨3, 3⟩, ⟨1, 3⟩, ⟨1, 2⟩, ⟨0, 2⟩]⟩, []⟩) by decide +kernel, rfl⟩

end Clipping
