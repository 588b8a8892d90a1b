import Verif.Lemmas.Shaped.Detached
import Verif.Properties.Complete

/-!
# C51: operations on polygons the contours of which do not touch each other

If no two contours of the same operand have a common point (holes do not touch the border nor each other, polygons of a
multipolygon do not touch each other), the results are valid and exact, wherever the operands touch, cross or overlap each
other.
-/

namespace Clipping

/-- **C51** `intersect_polygons`: the result is valid and has exactly the points of the intersection, up to its boundary. -/
theorem intersectPolygons_detached {o : Orient} (ok : OrientOk o) (tb : TieBreak) {a : Polygon} {b : Polygon}
    (va : ValidPolygon a) (vb : ValidPolygon b) (da : Detached [a]) (db : Detached [b]) :
    ∃ g, intersectPolygons o tb a b = .ok g ∧ g.IsShaped ∧ ValidPolygons g.polygons ∧
      polysPts g.polygons = closureOff (a.edges ++ b.edges) (a.pts ∩ b.pts) :=
  intersectPolygons_exact_partial ok tb va vb (Detached.fewTouchEach (polygonOperand_ok va).valid (polygonOperand_ok vb).valid da db)

/-- **C51** `intersect_polygon_with_multipolygon`: the result is valid and has exactly the points of the intersection, up to its boundary. -/
theorem intersectPolygonWithMultipolygon_detached {o : Orient} (ok : OrientOk o) (tb : TieBreak) {a : Polygon} {b : List Polygon}
    (va : ValidPolygon a) (nb : b ≠ []) (vb : ValidPolygons b) (da : Detached [a]) (db : Detached b) :
    ∃ g, intersectPolygonWithMultipolygon o tb a b = .ok g ∧ g.IsShaped ∧ ValidPolygons g.polygons ∧
      polysPts g.polygons = closureOff (a.edges ++ b.flatMap Polygon.edges) (a.pts ∩ polysPts b) :=
  intersectPolygonWithMultipolygon_exact_partial ok tb va nb vb (Detached.fewTouchEach (polygonOperand_ok va).valid vb da db)

/-- **C51** `intersect_multipolygons`: the result is valid and has exactly the points of the intersection, up to its boundary. -/
theorem intersectMultipolygons_detached {o : Orient} (ok : OrientOk o) (tb : TieBreak) {a : List Polygon} {b : List Polygon}
    (na : a ≠ []) (va : ValidPolygons a) (nb : b ≠ []) (vb : ValidPolygons b) (da : Detached a) (db : Detached b) :
    ∃ g, intersectMultipolygons o tb a b = .ok g ∧ g.IsShaped ∧ ValidPolygons g.polygons ∧
      polysPts g.polygons = closureOff (a.flatMap Polygon.edges ++ b.flatMap Polygon.edges) (polysPts a ∩ polysPts b) :=
  intersectMultipolygons_exact_partial ok tb na va nb vb (Detached.fewTouchEach va vb da db)

/-- **C51** `subtract_polygons`: the result is valid and has exactly the points of the difference, up to its boundary. -/
theorem subtractPolygons_detached {o : Orient} (ok : OrientOk o) (tb : TieBreak) {a : Polygon} {b : Polygon}
    (va : ValidPolygon a) (vb : ValidPolygon b) (da : Detached [a]) (db : Detached [b]) :
    ∃ g, subtractPolygons o tb a b = .ok g ∧ g.IsShaped ∧ ValidPolygons g.polygons ∧
      polysPts g.polygons = closureOff (a.edges ++ b.edges) (a.pts \ b.pts) :=
  subtractPolygons_exact_partial ok tb va vb (Detached.fewTouchEach (polygonOperand_ok va).valid (polygonOperand_ok vb).valid da db)

/-- **C51** `subtract_multipolygon_from_polygon`: the result is valid and has exactly the points of the difference, up to its boundary. -/
theorem subtractMultipolygonFromPolygon_detached {o : Orient} (ok : OrientOk o) (tb : TieBreak) {a : Polygon} {b : List Polygon}
    (va : ValidPolygon a) (nb : b ≠ []) (vb : ValidPolygons b) (da : Detached [a]) (db : Detached b) :
    ∃ g, subtractMultipolygonFromPolygon o tb a b = .ok g ∧ g.IsShaped ∧ ValidPolygons g.polygons ∧
      polysPts g.polygons = closureOff (a.edges ++ b.flatMap Polygon.edges) (a.pts \ polysPts b) :=
  subtractMultipolygonFromPolygon_exact_partial ok tb va nb vb (Detached.fewTouchEach (polygonOperand_ok va).valid vb da db)

/-- **C51** `subtract_polygon_from_multipolygon`: the result is valid and has exactly the points of the difference, up to its boundary. -/
theorem subtractPolygonFromMultipolygon_detached {o : Orient} (ok : OrientOk o) (tb : TieBreak) {a : List Polygon} {b : Polygon}
    (na : a ≠ []) (va : ValidPolygons a) (vb : ValidPolygon b) (da : Detached a) (db : Detached [b]) :
    ∃ g, subtractPolygonFromMultipolygon o tb a b = .ok g ∧ g.IsShaped ∧ ValidPolygons g.polygons ∧
      polysPts g.polygons = closureOff (a.flatMap Polygon.edges ++ b.edges) (polysPts a \ b.pts) :=
  subtractPolygonFromMultipolygon_exact_partial ok tb na va vb (Detached.fewTouchEach va (polygonOperand_ok vb).valid da db)

/-- **C51** `subtract_multipolygons`: the result is valid and has exactly the points of the difference, up to its boundary. -/
theorem subtractMultipolygons_detached {o : Orient} (ok : OrientOk o) (tb : TieBreak) {a : List Polygon} {b : List Polygon}
    (na : a ≠ []) (va : ValidPolygons a) (nb : b ≠ []) (vb : ValidPolygons b) (da : Detached a) (db : Detached b) :
    ∃ g, subtractMultipolygons o tb a b = .ok g ∧ g.IsShaped ∧ ValidPolygons g.polygons ∧
      polysPts g.polygons = closureOff (a.flatMap Polygon.edges ++ b.flatMap Polygon.edges) (polysPts a \ polysPts b) :=
  subtractMultipolygons_exact_partial ok tb na va nb vb (Detached.fewTouchEach va vb da db)

/-- **C51** `symmetric_subtract_polygons`: the result is valid and has exactly the points of the symmetric difference, up to its boundary. -/
theorem symmetricSubtractPolygons_detached (tb : TieBreak) {a : Polygon} {b : Polygon}
    (va : ValidPolygon a) (vb : ValidPolygon b) (da : Detached [a]) (db : Detached [b]) :
    ∃ g, symmetricSubtractPolygons tb a b = .ok g ∧ g.IsShaped ∧ ValidPolygons g.polygons ∧
      polysPts g.polygons = closureOff (a.edges ++ b.edges) ((a.pts \ b.pts) ∪ (b.pts \ a.pts)) :=
  symmetricSubtractPolygons_exact_partial tb va vb (by
    simpa only [polygonOperand, List.flatMap_cons, List.flatMap_nil, List.append_nil] using (Detached.fewTouchEach (polygonOperand_ok va).valid (polygonOperand_ok vb).valid da db).fewTouch)

/-- **C51** `symmetric_subtract_multipolygon_from_polygon`: the result is valid and has exactly the points of the symmetric difference, up to its boundary. -/
theorem symmetricSubtractMultipolygonFromPolygon_detached (tb : TieBreak) {a : Polygon} {b : List Polygon}
    (va : ValidPolygon a) (nb : b ≠ []) (vb : ValidPolygons b) (da : Detached [a]) (db : Detached b) :
    ∃ g, symmetricSubtractMultipolygonFromPolygon tb a b = .ok g ∧ g.IsShaped ∧ ValidPolygons g.polygons ∧
      polysPts g.polygons = closureOff (a.edges ++ b.flatMap Polygon.edges) ((a.pts \ polysPts b) ∪ (polysPts b \ a.pts)) :=
  symmetricSubtractMultipolygonFromPolygon_exact_partial tb va nb vb (by
    simpa only [polygonOperand, List.flatMap_cons, List.flatMap_nil, List.append_nil] using (Detached.fewTouchEach (polygonOperand_ok va).valid vb da db).fewTouch)

/-- **C51** `symmetric_subtract_multipolygons`: the result is valid and has exactly the points of the symmetric difference, up to its boundary. -/
theorem symmetricSubtractMultipolygons_detached (tb : TieBreak) {a : List Polygon} {b : List Polygon}
    (na : a ≠ []) (va : ValidPolygons a) (nb : b ≠ []) (vb : ValidPolygons b) (da : Detached a) (db : Detached b) :
    ∃ g, symmetricSubtractMultipolygons tb a b = .ok g ∧ g.IsShaped ∧ ValidPolygons g.polygons ∧
      polysPts g.polygons = closureOff (a.flatMap Polygon.edges ++ b.flatMap Polygon.edges) ((polysPts a \ polysPts b) ∪ (polysPts b \ polysPts a)) :=
  symmetricSubtractMultipolygons_exact_partial tb na va nb vb (by
    simpa only [polygonOperand, List.flatMap_cons, List.flatMap_nil, List.append_nil] using (Detached.fewTouchEach va vb da db).fewTouch)

/-- **C51** `unite_polygons`: the result is valid and has exactly the points of the union, up to its boundary. -/
theorem unitePolygons_detached (tb : TieBreak) {a : Polygon} {b : Polygon}
    (va : ValidPolygon a) (vb : ValidPolygon b) (da : Detached [a]) (db : Detached [b]) :
    ∃ g, unitePolygons tb a b = .ok g ∧ g.IsShaped ∧ ValidPolygons g.polygons ∧
      polysPts g.polygons = closureOff (a.edges ++ b.edges) (a.pts ∪ b.pts) :=
  unitePolygons_exact_partial tb va vb (by
    simpa only [polygonOperand, List.flatMap_cons, List.flatMap_nil, List.append_nil] using (Detached.fewTouchEach (polygonOperand_ok va).valid (polygonOperand_ok vb).valid da db).fewTouch)

/-- **C51** `unite_polygon_with_multipolygon`: the result is valid and has exactly the points of the union, up to its boundary. -/
theorem unitePolygonWithMultipolygon_detached (tb : TieBreak) {a : Polygon} {b : List Polygon}
    (va : ValidPolygon a) (nb : b ≠ []) (vb : ValidPolygons b) (da : Detached [a]) (db : Detached b) :
    ∃ g, unitePolygonWithMultipolygon tb a b = .ok g ∧ g.IsShaped ∧ ValidPolygons g.polygons ∧
      polysPts g.polygons = closureOff (a.edges ++ b.flatMap Polygon.edges) (a.pts ∪ polysPts b) :=
  unitePolygonWithMultipolygon_exact_partial tb va nb vb (by
    simpa only [polygonOperand, List.flatMap_cons, List.flatMap_nil, List.append_nil] using (Detached.fewTouchEach (polygonOperand_ok va).valid vb da db).fewTouch)

/-- **C51** `unite_multipolygons`: the result is valid and has exactly the points of the union, up to its boundary. -/
theorem uniteMultipolygons_detached (tb : TieBreak) {a : List Polygon} {b : List Polygon}
    (na : a ≠ []) (va : ValidPolygons a) (nb : b ≠ []) (vb : ValidPolygons b) (da : Detached a) (db : Detached b) :
    ∃ g, uniteMultipolygons tb a b = .ok g ∧ g.IsShaped ∧ ValidPolygons g.polygons ∧
      polysPts g.polygons = closureOff (a.flatMap Polygon.edges ++ b.flatMap Polygon.edges) (polysPts a ∪ polysPts b) :=
  uniteMultipolygons_exact_partial tb na va nb vb (by
    simpa only [polygonOperand, List.flatMap_cons, List.flatMap_nil, List.append_nil] using (Detached.fewTouchEach va vb da db).fewTouch)

/-- **C51** `complete_intersect_polygons`: the result has exactly the common points, its polygons are valid, and its parts meet in
ends of segments only. -/
theorem completeIntersectPolygons_detached {o : Orient} (ok : OrientOk o) (tb : TieBreak) {a : Polygon} {b : Polygon}
    (va : ValidPolygon a) (vb : ValidPolygon b) (da : Detached [a]) (db : Detached [b]) :
    ∃ g, completeIntersectPolygons o tb a b = .ok g ∧ g.Canonical ∧ g.pts = a.pts ∩ b.pts ∧
      ValidPolygons g.shapedPolygons ∧
      CompleteParts a.pts b.pts g.discretePoints g.linearSegments (polysPts g.shapedPolygons) :=
  completeIntersectPolygons_exact_partial ok tb va vb (Detached.fewTouchEach (polygonOperand_ok va).valid (polygonOperand_ok vb).valid da db)

/-- **C51** `complete_intersect_polygon_with_multipolygon`: the result has exactly the common points, its polygons are valid, and its parts meet in
ends of segments only. -/
theorem completeIntersectPolygonWithMultipolygon_detached {o : Orient} (ok : OrientOk o) (tb : TieBreak) {a : Polygon} {b : List Polygon}
    (va : ValidPolygon a) (nb : b ≠ []) (vb : ValidPolygons b) (da : Detached [a]) (db : Detached b) :
    ∃ g, completeIntersectPolygonWithMultipolygon o tb a b = .ok g ∧ g.Canonical ∧ g.pts = a.pts ∩ (polysPts b) ∧
      ValidPolygons g.shapedPolygons ∧
      CompleteParts a.pts (polysPts b) g.discretePoints g.linearSegments (polysPts g.shapedPolygons) :=
  completeIntersectPolygonWithMultipolygon_exact_partial ok tb va nb vb (Detached.fewTouchEach (polygonOperand_ok va).valid vb da db)

/-- **C51** `complete_intersect_multipolygons`: the result has exactly the common points, its polygons are valid, and its parts meet in
ends of segments only. -/
theorem completeIntersectMultipolygons_detached {o : Orient} (ok : OrientOk o) (tb : TieBreak) {a : List Polygon} {b : List Polygon}
    (na : a ≠ []) (va : ValidPolygons a) (nb : b ≠ []) (vb : ValidPolygons b) (da : Detached a) (db : Detached b) :
    ∃ g, completeIntersectMultipolygons o tb a b = .ok g ∧ g.Canonical ∧ g.pts = (polysPts a) ∩ (polysPts b) ∧
      ValidPolygons g.shapedPolygons ∧
      CompleteParts (polysPts a) (polysPts b) g.discretePoints g.linearSegments (polysPts g.shapedPolygons) :=
  completeIntersectMultipolygons_exact_partial ok tb na va nb vb (Detached.fewTouchEach va vb da db)

/-! ## Examples -/

/-- A triangle in the hole of `exFrame`, one vertex of which touches the edge of the hole from the right. -/
def exTouch : Polygon := ⟨triangle ⟨1, 2⟩ ⟨2, 5 / 2⟩ ⟨2, 2⟩, []⟩

theorem exTouch_valid : ValidPolygon exTouch := (triangle_simple (by unfold cross; norm_num)).validPolygon

theorem exFrame_detached : Detached [frame 0 0 4 1 2] := by
  unfold Detached
  simp only [frame, List.flatMap_cons, List.flatMap_nil, List.append_nil, List.pairwise_cons, List.mem_singleton, forall_eq,
    List.not_mem_nil, IsEmpty.forall_iff, implies_true, List.Pairwise.nil, and_true]
  intro q h1 h2
  exact frame_apart (by norm_num) (by norm_num) (by norm_num) q h1 (Or.inl h2)

/-- The frame and the triangle in its hole meet the hypotheses. -/
example (tb : TieBreak) : ∃ g, unitePolygons tb (frame 0 0 4 1 2) exTouch = .ok g ∧ g.IsShaped ∧ ValidPolygons g.polygons ∧
    polysPts g.polygons = closureOff ((frame 0 0 4 1 2).edges ++ exTouch.edges) ((frame 0 0 4 1 2).pts ∪ exTouch.pts) :=
  unitePolygons_detached tb (frame_valid (by norm_num) (by norm_num) (by norm_num)) exTouch_valid exFrame_detached
    (detached_single rfl)

example (tb : TieBreak) : ∃ g, completeIntersectPolygons (Classical.choose exists_orient) tb (frame 0 0 4 1 2) exTouch = .ok g ∧
    (⟨1, 2⟩ : Point) ∈ g.pts := by
  obtain ⟨g, h1, -, h3, -⟩ := completeIntersectPolygons_detached (Classical.choose_spec exists_orient) tb
    (frame_valid (x := 0) (y := 0) (a := 4) (b := 1) (c := 2) (by norm_num) (by norm_num) (by norm_num)) exTouch_valid
    exFrame_detached (detached_single rfl)
  refine ⟨g, h1, ?_⟩
  rw [h3, ← polysPts_single, ← polysPts_single, exTouch_valid.validPolygons.polysPts_eq,
    (frame_valid (x := 0) (y := 0) (a := 4) (b := 1) (c := 2) (by norm_num) (by norm_num) (by norm_num)).validPolygons.polysPts_eq]
  constructor
  · exact Or.inl ⟨⟨⟨1, 3⟩, ⟨1, 1⟩⟩, by decide +kernel, 1 / 2, by norm_num, by norm_num, by norm_num, by norm_num⟩
  · exact Or.inl ⟨⟨⟨1, 2⟩, ⟨2, 5 / 2⟩⟩, by decide +kernel, 0, by norm_num, by norm_num, by norm_num, by norm_num⟩

end Clipping
