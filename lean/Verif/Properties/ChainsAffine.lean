import Verif.Lemmas.Shaped.DrawnAffine
import Verif.Lemmas.Area.Laws
import Verif.Properties.Affine
import Verif.Properties.Folds

/-!
# C69: results and their areas move with the operands, also if holes are misplaced
-/

namespace Clipping

theorem Affine.expression_edges (T : Affine) (v : ℕ → List Polygon) (x : Expression) :
    x.edges (fun i => (v i).map T.polygon) = (x.edges v).map T.segment := by
  unfold Expression.edges
  rw [List.map_flatMap]
  simp only [T.polygons_edges]

/-- Drawings which surround images of what another drawing surrounds. -/
theorem Drawn.same_image {ps qs : List Polygon} {X : List Segment} (dp : Drawn ps) (dq : Drawn qs) (T : Affine) (hX : ∀ s ∈ X, s.Proper)
    (h : ∀ q, q ∉ segsPts X → (Inside (qs.flatMap Polygon.edges) (T.point q) ↔ Inside (ps.flatMap Polygon.edges) q)) :
    segsPts (qs.flatMap Polygon.edges) = T.point '' segsPts (ps.flatMap Polygon.edges) ∧
    regionPts (qs.flatMap Polygon.edges) = T.point '' regionPts (ps.flatMap Polygon.edges) ∧
    polysArea qs = |T.a * T.d - T.b * T.c| * polysArea ps := by
  rw [← T.segsPts_map, ← T.polygons_edges, ← T.region_polygons dp.contours, ← T.polysArea_map]
  refine dq.same (dp.image T) (X := (X ++ ps.flatMap Polygon.edges).map T.segment) ?_ ?_
  · intro s hs
    obtain ⟨t, ht, rfl⟩ := List.mem_map.1 hs
    rcases List.mem_append.1 ht with ht | ht
    · exact T.proper.2 (hX t ht)
    · exact T.proper.2 (dp.noOverlap.1 t ht)
  · intro q hq
    obtain ⟨q, rfl⟩ := T.surjective q
    rw [T.segsPts_map, Affine.mem_image] at hq
    rw [h q (off_append hq).1, T.inside_polygons dp.contours (off_append hq).2]

theorem allEdges_image (T : Affine) (l : List (List Polygon)) : allEdges (l.map fun a => a.map T.polygon) = (allEdges l).map T.segment := by
  unfold allEdges
  rw [List.map_flatMap, List.flatMap_map]
  simp only [T.polygons_edges]

section

variable {o o' : Orient} (ok : OrientOk o) (ok' : OrientOk o') (T : Affine)

include ok ok'

open Classical in
/-- **C69** Nested operations on images of operands, whether or not intermediate results are valid: the contour points and the surrounded points of the
result are the images of those of the result for the operands themselves, and its area is multiplied by the absolute value of the determinant. -/
theorem nested_affine {tb tb' : TieBreak} {v : ℕ → List Polygon} (hv : ∀ i, ValidPolygons (v i)) {x : Expression} {ps qs : List Polygon}
    (h : x.Evaluates o tb v ps) (h' : x.Evaluates o' tb' (fun i => (v i).map T.polygon) qs) :
    segsPts (qs.flatMap Polygon.edges) = T.point '' segsPts (ps.flatMap Polygon.edges) ∧
    regionPts (qs.flatMap Polygon.edges) = T.point '' regionPts (ps.flatMap Polygon.edges) ∧
    polysArea qs = |T.a * T.d - T.b * T.c| * polysArea ps := by
  have hv' : ∀ i, ValidPolygons ((v i).map T.polygon) := fun i => T.valid_polygons (hv i)
  refine (nested_drawn ok hv h).same_image (nested_drawn ok' hv' h') T (X := x.edges v) (edges_proper ok hv x) fun q hq => ?_
  rw [nested_inside ok' hv' h' (by rw [T.expression_edges, T.segsPts_map, Affine.mem_image]; exact hq), nested_inside ok hv h hq]
  have e : (fun i => decide (T.point q ∈ polysPts ((v i).map T.polygon))) = fun i => decide (q ∈ polysPts (v i)) := by
    funext i
    refine decide_eq_decide.2 ?_
    rw [T.polysPts_map (hv i), Affine.mem_image]
  rw [e]

/-- **C69** A single operation: nothing is assumed about touching contours. -/
theorem operation_affine_area (tb tb' : TieBreak) (k : Operation) {a b : List Polygon} (va : ValidPolygons a) (vb : ValidPolygons b) :
    ∃ g g', k.call o tb a b = .ok g ∧ k.call o' tb' (a.map T.polygon) (b.map T.polygon) = .ok g' ∧
      segsPts (g'.polygons.flatMap Polygon.edges) = T.point '' segsPts (g.polygons.flatMap Polygon.edges) ∧
      regionPts (g'.polygons.flatMap Polygon.edges) = T.point '' regionPts (g.polygons.flatMap Polygon.edges) ∧
      polysArea g'.polygons = |T.a * T.d - T.b * T.c| * polysArea g.polygons := by
  obtain ⟨g, e, O⟩ := Operation.call_outlines ok tb k va vb
  obtain ⟨g', e', O'⟩ := Operation.call_outlines ok' tb' k (T.valid_polygons va) (T.valid_polygons vb)
  refine ⟨g, g', e, e', O.drawn.same_image O'.drawn T (X := a.flatMap Polygon.edges ++ b.flatMap Polygon.edges)
    (proper_edges va.noOverlap vb.noOverlap) fun q hq => ?_⟩
  rw [O.inside q hq, O'.inside _ (by rwa [T.polygons_edges, T.polygons_edges, ← List.map_append, T.segsPts_map, Affine.mem_image])]
  unfold Combined
  simp only [va.inside_image T q (off_append hq).1, vb.inside_image T q (off_append hq).2]

/-- **C69** Uniting images of many operands. -/
theorem union_fold_affine (tb tb' : TieBreak) {a : List Polygon} (va : ValidPolygons a) {l : List (List Polygon)} (hl : ∀ b ∈ l, ValidPolygons b) :
    ∃ r r', Operation.union.fold o tb a l = .ok r ∧
      Operation.union.fold o' tb' (a.map T.polygon) (l.map fun b => b.map T.polygon) = .ok r' ∧
      segsPts (r'.flatMap Polygon.edges) = T.point '' segsPts (r.flatMap Polygon.edges) ∧
      regionPts (r'.flatMap Polygon.edges) = T.point '' regionPts (r.flatMap Polygon.edges) ∧
      polysArea r' = |T.a * T.d - T.b * T.c| * polysArea r := by
  have hl' : ∀ b ∈ l.map fun b => b.map T.polygon, ValidPolygons b := by
    intro b hb
    obtain ⟨c, hc, rfl⟩ := List.mem_map.1 hb
    exact T.valid_polygons (hl c hc)
  obtain ⟨r, e, d, -, i⟩ := union_fold ok tb va hl
  obtain ⟨r', e', d', -, i'⟩ := union_fold ok' tb' (T.valid_polygons va) hl'
  refine ⟨r, r', e, e', d.same_image d' T (X := allEdges (a :: l)) (allEdges_proper (by simpa using ⟨va, hl⟩)) fun q hq => ?_⟩
  have e1 := allEdges_image T (a :: l)
  rw [List.map_cons] at e1
  rw [i q hq, i' _ (by rwa [e1, T.segsPts_map, Affine.mem_image])]
  constructor
  · rintro ⟨b, hb, h⟩
    rcases List.mem_cons.1 hb with rfl | hb
    · exact ⟨a, by simp, by rwa [T.polysPts_map va, Affine.mem_image] at h⟩
    · obtain ⟨c, hc, rfl⟩ := List.mem_map.1 hb
      exact ⟨c, by simp [hc], by rwa [T.polysPts_map (hl c hc), Affine.mem_image] at h⟩
  · rintro ⟨b, hb, h⟩
    rcases List.mem_cons.1 hb with rfl | hb
    · exact ⟨_, List.mem_cons_self, by rwa [T.polysPts_map va, Affine.mem_image]⟩
    · exact ⟨b.map T.polygon, List.mem_cons_of_mem _ (List.mem_map_of_mem hb), by rwa [T.polysPts_map (hl b hb), Affine.mem_image]⟩

end

/-- The symmetric difference with a hole at the wrong polygon, with exchanged coordinates and stretched to the double: the area is the fourfold one. -/
example {o : Orient} (ok : OrientOk o) (tb' : TieBreak) : ∃ g', Operation.symmetricDifference.call o tb'
      ([exTriangle].map (⟨0, 2, 2, 0, 0, 0, by norm_num⟩ : Affine).polygon) (exTriangles.map (⟨0, 2, 2, 0, 0, 0, by norm_num⟩ : Affine).polygon) = .ok g' ∧
    polysArea g'.polygons = 4 * polysArea exWrong := by
  obtain ⟨g, g', e, e', -, -, h⟩ := operation_affine_area ok ok (⟨0, 2, 2, 0, 0, 0, by norm_num⟩ : Affine) TieBreak.id tb' .symmetricDifference
    exTriangle_valid.validPolygons exTriangles_valid
  obtain rfl := Except.ok.inj (e.symm.trans exWrong_eq)
  refine ⟨g', e', ?_⟩
  rw [h]
  norm_num [Geometry.polygons]

end Clipping
