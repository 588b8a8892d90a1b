import Verif.Lemmas.Shaped.Exact
import Verif.Properties.Polygons

/-!
# C42: results of operations on polygons and multipolygons are valid and exact

The points of the result are compared with the closure of the points of the combination which are on no edge of the
operands: parts of lower dimension (common edges and vertices of polygons which do not have other points in common) are
not in the result.

`symmetricSubtract_not_exact` shows that the property fails in general.  The hypothesis `FewTouch` (of the edges of all
polygons, or `FewTouchEach` of each two of them) excludes the cause: where a vertex lies inside of an edge, it is the vertex
of one contour only, or the polygons which meet there have an edge which arrives from the left and is not on the line of the
edge touched.  It is met by operands the contours of which do not touch each other (`Properties/Detached.lean`).
-/

namespace Clipping

theorem polysPts_single (p : Polygon) : polysPts [p] = p.pts := by
  ext q; simp [polysPts]

/-! ## Intersection -/

/-- **C42, partial** `intersect_polygons`: the result is valid and has exactly the points of the intersection, up to its boundary;
provided that several contours do not touch an edge in the same vertex from the right only. -/
theorem intersectPolygons_exact_partial {o : Orient} (ok : OrientOk o) (tb : TieBreak) {a : Polygon} {b : Polygon}
    (va : ValidPolygon a) (vb : ValidPolygon b) (N : FewTouchEach [a] [b]) :
    ∃ g, intersectPolygons o tb a b = .ok g ∧ g.IsShaped ∧ ValidPolygons g.polygons ∧
      polysPts g.polygons = closureOff (a.edges ++ b.edges) (a.pts ∩ b.pts) := by
  obtain ⟨g, h1, h2, h3, -, h5⟩ := holeyIntersection_outlines ok (polygonOperand_ok va) (polygonOperand_ok vb) tb
  have V := h5 (by simpa only [polygonOperand, multipolygonOperand, List.flatMap_cons, List.flatMap_nil, List.append_nil] using N)
  have E := h3.exact_inter (polygonOperand_ok va).valid (polygonOperand_ok vb).valid V
  simp only [polygonOperand, List.flatMap_cons, List.flatMap_nil, List.append_nil, polysPts_single] at E
  exact ⟨g, h1, h2, V, E⟩

/-- **C42, partial** `intersect_polygon_with_multipolygon`: the result is valid and has exactly the points of the intersection, up to its boundary;
provided that several contours do not touch an edge in the same vertex from the right only. -/
theorem intersectPolygonWithMultipolygon_exact_partial {o : Orient} (ok : OrientOk o) (tb : TieBreak) {a : Polygon} {b : List Polygon}
    (va : ValidPolygon a) (nb : b ≠ []) (vb : ValidPolygons b) (N : FewTouchEach [a] b) :
    ∃ g, intersectPolygonWithMultipolygon o tb a b = .ok g ∧ g.IsShaped ∧ ValidPolygons g.polygons ∧
      polysPts g.polygons = closureOff (a.edges ++ b.flatMap Polygon.edges) (a.pts ∩ polysPts b) := by
  obtain ⟨g, h1, h2, h3, -, h5⟩ := holeyIntersection_outlines ok (polygonOperand_ok va) (multipolygonOperand_ok nb vb) tb
  have V := h5 (by simpa only [polygonOperand, multipolygonOperand, List.flatMap_cons, List.flatMap_nil, List.append_nil] using N)
  have E := h3.exact_inter (polygonOperand_ok va).valid vb V
  simp only [polygonOperand, List.flatMap_cons, List.flatMap_nil, List.append_nil, polysPts_single] at E
  exact ⟨g, h1, h2, V, E⟩

/-- **C42, partial** `intersect_multipolygons`: the result is valid and has exactly the points of the intersection, up to its boundary;
provided that several contours do not touch an edge in the same vertex from the right only. -/
theorem intersectMultipolygons_exact_partial {o : Orient} (ok : OrientOk o) (tb : TieBreak) {a : List Polygon} {b : List Polygon}
    (na : a ≠ []) (va : ValidPolygons a) (nb : b ≠ []) (vb : ValidPolygons b) (N : FewTouchEach a b) :
    ∃ g, intersectMultipolygons o tb a b = .ok g ∧ g.IsShaped ∧ ValidPolygons g.polygons ∧
      polysPts g.polygons = closureOff (a.flatMap Polygon.edges ++ b.flatMap Polygon.edges) (polysPts a ∩ polysPts b) := by
  obtain ⟨g, h1, h2, h3, -, h5⟩ := holeyIntersection_outlines ok (multipolygonOperand_ok na va) (multipolygonOperand_ok nb vb) tb
  have V := h5 (by simpa only [polygonOperand, multipolygonOperand, List.flatMap_cons, List.flatMap_nil, List.append_nil] using N)
  have E := h3.exact_inter va vb V
  exact ⟨g, h1, h2, V, E⟩

/-! ## Difference -/

/-- **C42, partial** `subtract_polygons`: the result is valid and has exactly the points of the difference, up to its boundary;
provided that several contours do not touch an edge in the same vertex from the right only. -/
theorem subtractPolygons_exact_partial {o : Orient} (ok : OrientOk o) (tb : TieBreak) {a : Polygon} {b : Polygon}
    (va : ValidPolygon a) (vb : ValidPolygon b) (N : FewTouchEach [a] [b]) :
    ∃ g, subtractPolygons o tb a b = .ok g ∧ g.IsShaped ∧ ValidPolygons g.polygons ∧
      polysPts g.polygons = closureOff (a.edges ++ b.edges) (a.pts \ b.pts) := by
  obtain ⟨g, h1, h2, h3, -, h5⟩ := holeyDifference_outlines ok (polygonOperand_ok va) (polygonOperand_ok vb) tb rfl trivial
  have V := h5 (by simpa only [polygonOperand, multipolygonOperand, List.flatMap_cons, List.flatMap_nil, List.append_nil] using N)
  have E := h3.exact_diff (polygonOperand_ok va).valid (polygonOperand_ok vb).valid V
  simp only [polygonOperand, List.flatMap_cons, List.flatMap_nil, List.append_nil, polysPts_single] at E
  exact ⟨g, h1, h2, V, E⟩

/-- **C42, partial** `subtract_multipolygon_from_polygon`: the result is valid and has exactly the points of the difference, up to its boundary;
provided that several contours do not touch an edge in the same vertex from the right only. -/
theorem subtractMultipolygonFromPolygon_exact_partial {o : Orient} (ok : OrientOk o) (tb : TieBreak) {a : Polygon} {b : List Polygon}
    (va : ValidPolygon a) (nb : b ≠ []) (vb : ValidPolygons b) (N : FewTouchEach [a] b) :
    ∃ g, subtractMultipolygonFromPolygon o tb a b = .ok g ∧ g.IsShaped ∧ ValidPolygons g.polygons ∧
      polysPts g.polygons = closureOff (a.edges ++ b.flatMap Polygon.edges) (a.pts \ polysPts b) := by
  obtain ⟨g, h1, h2, h3, -, h5⟩ := holeyDifference_outlines ok (polygonOperand_ok va) (multipolygonOperand_ok nb vb) tb rfl trivial
  have V := h5 (by simpa only [polygonOperand, multipolygonOperand, List.flatMap_cons, List.flatMap_nil, List.append_nil] using N)
  have E := h3.exact_diff (polygonOperand_ok va).valid vb V
  simp only [polygonOperand, List.flatMap_cons, List.flatMap_nil, List.append_nil, polysPts_single] at E
  exact ⟨g, h1, h2, V, E⟩

/-- **C42, partial** `subtract_polygon_from_multipolygon`: the result is valid and has exactly the points of the difference, up to its boundary;
provided that several contours do not touch an edge in the same vertex from the right only. -/
theorem subtractPolygonFromMultipolygon_exact_partial {o : Orient} (ok : OrientOk o) (tb : TieBreak) {a : List Polygon} {b : Polygon}
    (na : a ≠ []) (va : ValidPolygons a) (vb : ValidPolygon b) (N : FewTouchEach a [b]) :
    ∃ g, subtractPolygonFromMultipolygon o tb a b = .ok g ∧ g.IsShaped ∧ ValidPolygons g.polygons ∧
      polysPts g.polygons = closureOff (a.flatMap Polygon.edges ++ b.edges) (polysPts a \ b.pts) := by
  obtain ⟨g, h1, h2, h3, -, h5⟩ := holeyDifference_outlines ok (multipolygonOperand_ok na va) (polygonOperand_ok vb) tb rfl na
  have V := h5 (by simpa only [polygonOperand, multipolygonOperand, List.flatMap_cons, List.flatMap_nil, List.append_nil] using N)
  have E := h3.exact_diff va (polygonOperand_ok vb).valid V
  simp only [polygonOperand, List.flatMap_cons, List.flatMap_nil, List.append_nil, polysPts_single] at E
  exact ⟨g, h1, h2, V, E⟩

/-- **C42, partial** `subtract_multipolygons`: the result is valid and has exactly the points of the difference, up to its boundary;
provided that several contours do not touch an edge in the same vertex from the right only. -/
theorem subtractMultipolygons_exact_partial {o : Orient} (ok : OrientOk o) (tb : TieBreak) {a : List Polygon} {b : List Polygon}
    (na : a ≠ []) (va : ValidPolygons a) (nb : b ≠ []) (vb : ValidPolygons b) (N : FewTouchEach a b) :
    ∃ g, subtractMultipolygons o tb a b = .ok g ∧ g.IsShaped ∧ ValidPolygons g.polygons ∧
      polysPts g.polygons = closureOff (a.flatMap Polygon.edges ++ b.flatMap Polygon.edges) (polysPts a \ polysPts b) := by
  obtain ⟨g, h1, h2, h3, -, h5⟩ := holeyDifference_outlines ok (multipolygonOperand_ok na va) (multipolygonOperand_ok nb vb) tb rfl na
  have V := h5 (by simpa only [polygonOperand, multipolygonOperand, List.flatMap_cons, List.flatMap_nil, List.append_nil] using N)
  have E := h3.exact_diff va vb V
  exact ⟨g, h1, h2, V, E⟩

/-! ## Symmetric difference -/

/-- **C42, partial** `symmetric_subtract_polygons`: the result is valid and has exactly the points of the symmetric difference, up to its boundary;
provided that several contours do not touch an edge in the same vertex from the right only. -/
theorem symmetricSubtractPolygons_exact_partial (tb : TieBreak) {a : Polygon} {b : Polygon}
    (va : ValidPolygon a) (vb : ValidPolygon b) (N : FewTouch (a.edges ++ b.edges)) :
    ∃ g, symmetricSubtractPolygons tb a b = .ok g ∧ g.IsShaped ∧ ValidPolygons g.polygons ∧
      polysPts g.polygons = closureOff (a.edges ++ b.edges) ((a.pts \ b.pts) ∪ (b.pts \ a.pts)) := by
  obtain ⟨g, h1, h2, h3, -, h5⟩ := holeySymmetricDifference_outlines (polygonOperand_ok va) (polygonOperand_ok vb) tb
  have V := h5 (by simpa only [polygonOperand, multipolygonOperand, List.flatMap_cons, List.flatMap_nil, List.append_nil] using N)
  have E := h3.exact_xor (polygonOperand_ok va).valid (polygonOperand_ok vb).valid V
  simp only [polygonOperand, List.flatMap_cons, List.flatMap_nil, List.append_nil, polysPts_single] at E
  exact ⟨g, h1, h2, V, E⟩

/-- **C42, partial** `symmetric_subtract_multipolygon_from_polygon`: the result is valid and has exactly the points of the symmetric difference, up to its boundary;
provided that several contours do not touch an edge in the same vertex from the right only. -/
theorem symmetricSubtractMultipolygonFromPolygon_exact_partial (tb : TieBreak) {a : Polygon} {b : List Polygon}
    (va : ValidPolygon a) (nb : b ≠ []) (vb : ValidPolygons b) (N : FewTouch (a.edges ++ b.flatMap Polygon.edges)) :
    ∃ g, symmetricSubtractMultipolygonFromPolygon tb a b = .ok g ∧ g.IsShaped ∧ ValidPolygons g.polygons ∧
      polysPts g.polygons = closureOff (a.edges ++ b.flatMap Polygon.edges) ((a.pts \ polysPts b) ∪ (polysPts b \ a.pts)) := by
  obtain ⟨g, h1, h2, h3, -, h5⟩ := holeySymmetricDifference_outlines (polygonOperand_ok va) (multipolygonOperand_ok nb vb) tb
  have V := h5 (by simpa only [polygonOperand, multipolygonOperand, List.flatMap_cons, List.flatMap_nil, List.append_nil] using N)
  have E := h3.exact_xor (polygonOperand_ok va).valid vb V
  simp only [polygonOperand, List.flatMap_cons, List.flatMap_nil, List.append_nil, polysPts_single] at E
  exact ⟨g, h1, h2, V, E⟩

/-- **C42, partial** `symmetric_subtract_multipolygons`: the result is valid and has exactly the points of the symmetric difference, up to its boundary;
provided that several contours do not touch an edge in the same vertex from the right only. -/
theorem symmetricSubtractMultipolygons_exact_partial (tb : TieBreak) {a : List Polygon} {b : List Polygon}
    (na : a ≠ []) (va : ValidPolygons a) (nb : b ≠ []) (vb : ValidPolygons b) (N : FewTouch (a.flatMap Polygon.edges ++ b.flatMap Polygon.edges)) :
    ∃ g, symmetricSubtractMultipolygons tb a b = .ok g ∧ g.IsShaped ∧ ValidPolygons g.polygons ∧
      polysPts g.polygons = closureOff (a.flatMap Polygon.edges ++ b.flatMap Polygon.edges) ((polysPts a \ polysPts b) ∪ (polysPts b \ polysPts a)) := by
  obtain ⟨g, h1, h2, h3, -, h5⟩ := holeySymmetricDifference_outlines (multipolygonOperand_ok na va) (multipolygonOperand_ok nb vb) tb
  have V := h5 (by simpa only [polygonOperand, multipolygonOperand, List.flatMap_cons, List.flatMap_nil, List.append_nil] using N)
  have E := h3.exact_xor va vb V
  exact ⟨g, h1, h2, V, E⟩

/-! ## Union -/

/-- **C42, partial** `unite_polygons`: the result is valid and has exactly the points of the union, up to its boundary;
provided that several contours do not touch an edge in the same vertex from the right only. -/
theorem unitePolygons_exact_partial (tb : TieBreak) {a : Polygon} {b : Polygon}
    (va : ValidPolygon a) (vb : ValidPolygon b) (N : FewTouch (a.edges ++ b.edges)) :
    ∃ g, unitePolygons tb a b = .ok g ∧ g.IsShaped ∧ ValidPolygons g.polygons ∧
      polysPts g.polygons = closureOff (a.edges ++ b.edges) (a.pts ∪ b.pts) := by
  obtain ⟨g, h1, h2, h3, -, h5⟩ := holeyUnion_outlines (polygonOperand_ok va) (polygonOperand_ok vb) tb
  have V := h5 (by simpa only [polygonOperand, multipolygonOperand, List.flatMap_cons, List.flatMap_nil, List.append_nil] using N)
  have E := h3.exact_union (polygonOperand_ok va).valid (polygonOperand_ok vb).valid V
  simp only [polygonOperand, List.flatMap_cons, List.flatMap_nil, List.append_nil, polysPts_single] at E
  exact ⟨g, h1, h2, V, E⟩

/-- **C42, partial** `unite_polygon_with_multipolygon`: the result is valid and has exactly the points of the union, up to its boundary;
provided that several contours do not touch an edge in the same vertex from the right only. -/
theorem unitePolygonWithMultipolygon_exact_partial (tb : TieBreak) {a : Polygon} {b : List Polygon}
    (va : ValidPolygon a) (nb : b ≠ []) (vb : ValidPolygons b) (N : FewTouch (a.edges ++ b.flatMap Polygon.edges)) :
    ∃ g, unitePolygonWithMultipolygon tb a b = .ok g ∧ g.IsShaped ∧ ValidPolygons g.polygons ∧
      polysPts g.polygons = closureOff (a.edges ++ b.flatMap Polygon.edges) (a.pts ∪ polysPts b) := by
  obtain ⟨g, h1, h2, h3, -, h5⟩ := holeyUnion_outlines (polygonOperand_ok va) (multipolygonOperand_ok nb vb) tb
  have V := h5 (by simpa only [polygonOperand, multipolygonOperand, List.flatMap_cons, List.flatMap_nil, List.append_nil] using N)
  have E := h3.exact_union (polygonOperand_ok va).valid vb V
  simp only [polygonOperand, List.flatMap_cons, List.flatMap_nil, List.append_nil, polysPts_single] at E
  exact ⟨g, h1, h2, V, E⟩

/-- **C42, partial** `unite_multipolygons`: the result is valid and has exactly the points of the union, up to its boundary;
provided that several contours do not touch an edge in the same vertex from the right only. -/
theorem uniteMultipolygons_exact_partial (tb : TieBreak) {a : List Polygon} {b : List Polygon}
    (na : a ≠ []) (va : ValidPolygons a) (nb : b ≠ []) (vb : ValidPolygons b) (N : FewTouch (a.flatMap Polygon.edges ++ b.flatMap Polygon.edges)) :
    ∃ g, uniteMultipolygons tb a b = .ok g ∧ g.IsShaped ∧ ValidPolygons g.polygons ∧
      polysPts g.polygons = closureOff (a.flatMap Polygon.edges ++ b.flatMap Polygon.edges) (polysPts a ∪ polysPts b) := by
  obtain ⟨g, h1, h2, h3, -, h5⟩ := holeyUnion_outlines (multipolygonOperand_ok na va) (multipolygonOperand_ok nb vb) tb
  have V := h5 (by simpa only [polygonOperand, multipolygonOperand, List.flatMap_cons, List.flatMap_nil, List.append_nil] using N)
  have E := h3.exact_union va vb V
  exact ⟨g, h1, h2, V, E⟩

/-! ## Examples -/

/-- the point is on the segment -/
def onSegment (v : Point) (s : Segment) : Bool :=
  decide (cross s.lo s.hi v = 0 ∧ s.lo ≤ v ∧ v ≤ s.hi)

/-- test of `FewTouchEach` -/
def fewTouchEach (ps : List Polygon) : Bool :=
  ps.all fun p => p.edges.all fun e => [e.start, e.stop].all fun v => ps.all fun p' => p'.edges.all fun u =>
    !(onSegment v u && !(v == u.start) && !(v == u.stop)) ||
      ((p.edges ++ p'.edges).any fun f => onSegment v f && decide (f.lo < v) && decide (cross u.start u.stop f.lo ≠ 0)) ||
      decide (degree (ps.flatMap Polygon.edges) v ≤ 2)

theorem fewTouchEach_sound {P Q : List Polygon} (hp : ∀ p ∈ P ++ Q, ∀ e ∈ p.edges, e.Proper)
    (h : fewTouchEach (P ++ Q) = true) : FewTouchEach P Q := by
  have on : ∀ {v : Point} {s : Segment}, s.Proper → (onSegment v s = true ↔ v ∈ s.pts) := by
    intro v s hs
    rw [Segment.mem_iff hs, onSegment, decide_eq_true_iff]
  unfold fewTouchEach at h
  intro p h1 e h2 v h3 p' h4 u h5 h6 h7
  have := List.all_eq_true.1 (List.all_eq_true.1 (List.all_eq_true.1 (List.all_eq_true.1
    (List.all_eq_true.1 h p h1) e h2) v (by rcases h3 with rfl | rfl <;> simp)) p' h4) u h5
  rw [Bool.or_eq_true, Bool.or_eq_true, decide_eq_true_eq] at this
  have prop : ∀ f ∈ p.edges ++ p'.edges, f.Proper := by
    intro f hf
    rcases List.mem_append.1 hf with hf | hf
    · exact hp p h1 f hf
    · exact hp p' h4 f hf
  rcases this with (this | this) | this
  · exfalso
    have a1 := (on (hp p' h4 u h5)).2 h6
    have a2 : v ≠ u.start := fun h => h7 (Or.inl h)
    have a3 : v ≠ u.stop := fun h => h7 (Or.inr h)
    simp [a1, a2, a3] at this
  · obtain ⟨f, hf, g⟩ := List.any_eq_true.1 this
    simp only [Bool.and_eq_true, decide_eq_true_eq] at g
    exact Or.inl ⟨f, hf, (on (prop f hf)).1 g.1.1, g.1.2, g.2⟩
  · exact Or.inr this

theorem exFrame_fewTouch : FewTouchEach exFrame exFrame' :=
  fewTouchEach_sound (by decide +kernel) (by decide +kernel)

/-- The frames of the examples of `Properties/Shaped.lean` meet the hypotheses. -/
example : ∃ g, intersectMultipolygons (Classical.choose exists_orient) TieBreak.id exFrame exFrame' = .ok g ∧ g.IsShaped ∧
    ValidPolygons g.polygons ∧ polysPts g.polygons =
      closureOff (exFrame.flatMap Polygon.edges ++ exFrame'.flatMap Polygon.edges) (polysPts exFrame ∩ polysPts exFrame') :=
  intersectMultipolygons_exact_partial (Classical.choose_spec exists_orient) _ (by simp [exFrame]) exFrame_valid (by simp [exFrame'])
    exFrame'_valid exFrame_fewTouch

example (tb : TieBreak) : ∃ g, uniteMultipolygons tb exFrame exFrame' = .ok g ∧ g.IsShaped ∧
    ValidPolygons g.polygons ∧ polysPts g.polygons =
      closureOff (exFrame.flatMap Polygon.edges ++ exFrame'.flatMap Polygon.edges) (polysPts exFrame ∪ polysPts exFrame') :=
  uniteMultipolygons_exact_partial tb (by simp [exFrame]) exFrame_valid (by simp [exFrame']) exFrame'_valid
    exFrame_fewTouch.fewTouch

end Clipping
