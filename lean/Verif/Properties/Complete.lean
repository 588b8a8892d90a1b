import Verif.Lemmas.Shaped.CompleteResult
import Verif.Properties.PolygonsExact

/-!
# C43: complete intersections of polygons and multipolygons

The complete intersection has the common points of the operands of every dimension: isolated points, segments along common
edges, and polygons.  `*_parts` hold for all valid operands and speak of the region bounded by all contours of the result,
`*_exact_partial` speak of the points of the returned geometry and need that several contours do not touch an edge in the
same vertex from the right only (compare `Properties/PolygonsExact.lean`), because a hole may be attached to the wrong polygon otherwise.
-/

namespace Clipping

/-- **C43** `complete_intersect_polygons`: the parts of the result are together the common points; its contours are the boundary of the common
interior. -/
theorem completeIntersectPolygons_parts {o : Orient} (ok : OrientOk o) (tb : TieBreak) {a : Polygon} {b : Polygon}
    (va : ValidPolygon a) (vb : ValidPolygon b) :
    ∃ g, completeIntersectPolygons o tb a b = .ok g ∧ g.Canonical ∧
      Outlines (fun a b => a && b) a.edges b.edges g.shapedPolygons ∧ (∀ p ∈ g.shapedPolygons, p.Oriented) ∧
      CompleteParts a.pts b.pts g.discretePoints g.linearSegments (regionPts (g.shapedPolygons.flatMap Polygon.edges)) := by
  obtain ⟨g, h1, h2, h3, h4, -, h6⟩ := holeyCompleteIntersection_parts ok (polygonOperand_ok va) (polygonOperand_ok vb) tb
  simp only [polygonOperand, List.flatMap_cons, List.flatMap_nil, List.append_nil, polysPts_single] at h3 h6
  exact ⟨g, h1, h2, h3, h4, h6⟩

/-- **C43, partial** `complete_intersect_polygons`: the result has exactly the common points, its polygons are valid, and its parts meet in
ends of segments only; provided that several contours do not touch an edge in the same vertex from the right only. -/
theorem completeIntersectPolygons_exact_partial {o : Orient} (ok : OrientOk o) (tb : TieBreak) {a : Polygon} {b : Polygon}
    (va : ValidPolygon a) (vb : ValidPolygon b) (N : FewTouchEach [a] [b]) :
    ∃ g, completeIntersectPolygons o tb a b = .ok g ∧ g.Canonical ∧ g.pts = a.pts ∩ b.pts ∧
      ValidPolygons g.shapedPolygons ∧
      CompleteParts a.pts b.pts g.discretePoints g.linearSegments (polysPts g.shapedPolygons) := by
  obtain ⟨g, h1, h2, h3, h4, h5⟩ := holeyCompleteIntersection_exact ok (polygonOperand_ok va) (polygonOperand_ok vb) tb N
  simp only [polygonOperand, polysPts_single] at h3 h5
  exact ⟨g, h1, h2, h3, h4, h5⟩

/-- **C43** `complete_intersect_polygon_with_multipolygon`: the parts of the result are together the common points; its contours are the boundary of the common
interior. -/
theorem completeIntersectPolygonWithMultipolygon_parts {o : Orient} (ok : OrientOk o) (tb : TieBreak) {a : Polygon} {b : List Polygon}
    (va : ValidPolygon a) (nb : b ≠ []) (vb : ValidPolygons b) :
    ∃ g, completeIntersectPolygonWithMultipolygon o tb a b = .ok g ∧ g.Canonical ∧
      Outlines (fun a b => a && b) a.edges (b.flatMap Polygon.edges) g.shapedPolygons ∧ (∀ p ∈ g.shapedPolygons, p.Oriented) ∧
      CompleteParts a.pts (polysPts b) g.discretePoints g.linearSegments (regionPts (g.shapedPolygons.flatMap Polygon.edges)) := by
  obtain ⟨g, h1, h2, h3, h4, -, h6⟩ := holeyCompleteIntersection_parts ok (polygonOperand_ok va) (multipolygonOperand_ok nb vb) tb
  simp only [polygonOperand, multipolygonOperand, List.flatMap_cons, List.flatMap_nil, List.append_nil, polysPts_single] at h3 h6
  exact ⟨g, h1, h2, h3, h4, h6⟩

/-- **C43, partial** `complete_intersect_polygon_with_multipolygon`: the result has exactly the common points, its polygons are valid, and its parts meet in
ends of segments only; provided that several contours do not touch an edge in the same vertex from the right only. -/
theorem completeIntersectPolygonWithMultipolygon_exact_partial {o : Orient} (ok : OrientOk o) (tb : TieBreak) {a : Polygon} {b : List Polygon}
    (va : ValidPolygon a) (nb : b ≠ []) (vb : ValidPolygons b) (N : FewTouchEach [a] b) :
    ∃ g, completeIntersectPolygonWithMultipolygon o tb a b = .ok g ∧ g.Canonical ∧ g.pts = a.pts ∩ (polysPts b) ∧
      ValidPolygons g.shapedPolygons ∧
      CompleteParts a.pts (polysPts b) g.discretePoints g.linearSegments (polysPts g.shapedPolygons) := by
  obtain ⟨g, h1, h2, h3, h4, h5⟩ := holeyCompleteIntersection_exact ok (polygonOperand_ok va) (multipolygonOperand_ok nb vb) tb N
  simp only [polygonOperand, multipolygonOperand, polysPts_single] at h3 h5
  exact ⟨g, h1, h2, h3, h4, h5⟩

/-- **C43** `complete_intersect_multipolygons`: the parts of the result are together the common points; its contours are the boundary of the common
interior. -/
theorem completeIntersectMultipolygons_parts {o : Orient} (ok : OrientOk o) (tb : TieBreak) {a : List Polygon} {b : List Polygon}
    (na : a ≠ []) (va : ValidPolygons a) (nb : b ≠ []) (vb : ValidPolygons b) :
    ∃ g, completeIntersectMultipolygons o tb a b = .ok g ∧ g.Canonical ∧
      Outlines (fun a b => a && b) (a.flatMap Polygon.edges) (b.flatMap Polygon.edges) g.shapedPolygons ∧ (∀ p ∈ g.shapedPolygons, p.Oriented) ∧
      CompleteParts (polysPts a) (polysPts b) g.discretePoints g.linearSegments (regionPts (g.shapedPolygons.flatMap Polygon.edges)) := by
  obtain ⟨g, h1, h2, h3, h4, -, h6⟩ := holeyCompleteIntersection_parts ok (multipolygonOperand_ok na va) (multipolygonOperand_ok nb vb) tb
  exact ⟨g, h1, h2, h3, h4, h6⟩

/-- **C43, partial** `complete_intersect_multipolygons`: the result has exactly the common points, its polygons are valid, and its parts meet in
ends of segments only; provided that several contours do not touch an edge in the same vertex from the right only. -/
theorem completeIntersectMultipolygons_exact_partial {o : Orient} (ok : OrientOk o) (tb : TieBreak) {a : List Polygon} {b : List Polygon}
    (na : a ≠ []) (va : ValidPolygons a) (nb : b ≠ []) (vb : ValidPolygons b) (N : FewTouchEach a b) :
    ∃ g, completeIntersectMultipolygons o tb a b = .ok g ∧ g.Canonical ∧ g.pts = (polysPts a) ∩ (polysPts b) ∧
      ValidPolygons g.shapedPolygons ∧
      CompleteParts (polysPts a) (polysPts b) g.discretePoints g.linearSegments (polysPts g.shapedPolygons) := by
  obtain ⟨g, h1, h2, h3, h4, h5⟩ := holeyCompleteIntersection_exact ok (multipolygonOperand_ok na va) (multipolygonOperand_ok nb vb) tb N
  exact ⟨g, h1, h2, h3, h4, h5⟩

/-! ## Examples -/

/-- A frame on the right of `exFrame`, with a common edge. -/
def exFrameRight : List Polygon := [frame 4 0 4 1 2]

theorem exFrameRight_valid : ValidPolygons exFrameRight :=
  ⟨by simpa [exFrameRight] using frame_valid (by norm_num) (by norm_num) (by norm_num),
    by simpa [exFrameRight] using (frame_valid (x := 4) (y := 0) (a := 4) (b := 1) (c := 2) (by norm_num) (by norm_num)
      (by norm_num)).noOverlap, by simp [exFrameRight]⟩

/-- The frames of the examples of `Properties/Shaped.lean` meet the hypotheses. -/
example (tb : TieBreak) : ∃ g, completeIntersectMultipolygons (Classical.choose exists_orient) tb exFrame exFrame' = .ok g ∧
    g.Canonical ∧ g.pts = polysPts exFrame ∩ polysPts exFrame' ∧ ValidPolygons g.shapedPolygons ∧
    CompleteParts (polysPts exFrame) (polysPts exFrame') g.discretePoints g.linearSegments (polysPts g.shapedPolygons) :=
  completeIntersectMultipolygons_exact_partial (Classical.choose_spec exists_orient) tb (by simp [exFrame]) exFrame_valid
    (by simp [exFrame']) exFrame'_valid exFrame_fewTouch

/-- Frames with a common edge: the result is not empty and lies on the line of this edge. -/
example (tb : TieBreak) : ∃ g, completeIntersectMultipolygons (Classical.choose exists_orient) tb exFrame exFrameRight = .ok g ∧
    (⟨4, 1⟩ : Point) ∈ g.pts ∧ ∀ q ∈ g.pts, q.x = 4 := by
  obtain ⟨g, h1, -, h3, -⟩ := completeIntersectMultipolygons_exact_partial (Classical.choose_spec exists_orient) tb
    (by simp [exFrame]) exFrame_valid (by simp [exFrameRight]) exFrameRight_valid
    (fewTouchEach_sound (by decide +kernel) (by decide +kernel))
  refine ⟨g, h1, ?_, ?_⟩
  · rw [h3, exFrame_valid.polysPts_eq, exFrameRight_valid.polysPts_eq]
    constructor
    · refine Or.inl ⟨⟨⟨4, 0⟩, ⟨4, 4⟩⟩, by decide +kernel, ?_⟩
      exact ⟨1 / 4, by norm_num, by norm_num, by norm_num, by norm_num⟩
    · refine Or.inl ⟨⟨⟨4, 4⟩, ⟨4, 0⟩⟩, by decide +kernel, ?_⟩
      exact ⟨3 / 4, by norm_num, by norm_num, by norm_num, by norm_num⟩
  · intro q hq
    rw [h3, exFrame_valid.polysPts_eq, exFrameRight_valid.polysPts_eq] at hq
    simp only [exFrame, exFrameRight, List.flatMap_cons, List.flatMap_nil, List.append_nil] at hq
    have l := (frame_box (by norm_num) (by norm_num) (by norm_num) hq.1).2.1
    have r := (frame_box (by norm_num) (by norm_num) (by norm_num) hq.2).1
    linarith

end Clipping
