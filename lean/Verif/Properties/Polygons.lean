import Verif.Lemmas.Shaped.Result
import Verif.Lemmas.Region.Triangle
import Verif.Properties.Mixed
import Verif.Properties.Shaped

/-!
# C41, C42: operations on polygons and multipolygons

`a` and `b` are polygons or lists of polygons, which are valid: contours are simple, holes are in the border and do not
have common interior points with each other, neither do polygons.  `o` are the functions of the library `orient`, of
which is assumed what they are documented to do (`OrientOk`), `tb` is how the priority queue orders events of which
neither precedes the other.
-/

namespace Clipping

/-! ## Intersection -/

/-- **C41** `intersect_polygons`: the contours of the result are the boundary of the intersection. -/
theorem intersectPolygons_outlines {o : Orient} (ok : OrientOk o) (tb : TieBreak) {a : Polygon} {b : Polygon}
    (va : ValidPolygon a) (vb : ValidPolygon b) : ∃ g, intersectPolygons o tb a b = .ok g ∧ g.IsShaped ∧
      Outlines (fun a b => a && b) a.edges b.edges g.polygons ∧ ∀ p ∈ g.polygons, p.Oriented := by
  obtain ⟨g, h1, h2, h3, h4, -⟩ := holeyIntersection_outlines ok (polygonOperand_ok va) (polygonOperand_ok vb) tb
  simp only [polygonOperand, multipolygonOperand, List.flatMap_cons, List.flatMap_nil, List.append_nil] at h3 h4
  exact ⟨g, h1, h2, h3, h4⟩

/-- **C41** `intersect_polygon_with_multipolygon`: the contours of the result are the boundary of the intersection. -/
theorem intersectPolygonWithMultipolygon_outlines {o : Orient} (ok : OrientOk o) (tb : TieBreak) {a : Polygon} {b : List Polygon}
    (va : ValidPolygon a) (nb : b ≠ []) (vb : ValidPolygons b) : ∃ g, intersectPolygonWithMultipolygon o tb a b = .ok g ∧ g.IsShaped ∧
      Outlines (fun a b => a && b) a.edges (b.flatMap Polygon.edges) g.polygons ∧ ∀ p ∈ g.polygons, p.Oriented := by
  obtain ⟨g, h1, h2, h3, h4, -⟩ := holeyIntersection_outlines ok (polygonOperand_ok va) (multipolygonOperand_ok nb vb) tb
  simp only [polygonOperand, multipolygonOperand, List.flatMap_cons, List.flatMap_nil, List.append_nil] at h3 h4
  exact ⟨g, h1, h2, h3, h4⟩

/-- **C41** `intersect_multipolygons`: the contours of the result are the boundary of the intersection. -/
theorem intersectMultipolygons_outlines {o : Orient} (ok : OrientOk o) (tb : TieBreak) {a : List Polygon} {b : List Polygon}
    (na : a ≠ []) (va : ValidPolygons a) (nb : b ≠ []) (vb : ValidPolygons b) : ∃ g, intersectMultipolygons o tb a b = .ok g ∧ g.IsShaped ∧
      Outlines (fun a b => a && b) (a.flatMap Polygon.edges) (b.flatMap Polygon.edges) g.polygons ∧ ∀ p ∈ g.polygons, p.Oriented := by
  obtain ⟨g, h1, h2, h3, h4, -⟩ := holeyIntersection_outlines ok (multipolygonOperand_ok na va) (multipolygonOperand_ok nb vb) tb
  simp only [polygonOperand, multipolygonOperand, List.flatMap_cons, List.flatMap_nil, List.append_nil] at h3 h4
  exact ⟨g, h1, h2, h3, h4⟩

/-! ## Difference -/

/-- **C41** `subtract_polygons`: the contours of the result are the boundary of the difference. -/
theorem subtractPolygons_outlines {o : Orient} (ok : OrientOk o) (tb : TieBreak) {a : Polygon} {b : Polygon}
    (va : ValidPolygon a) (vb : ValidPolygon b) : ∃ g, subtractPolygons o tb a b = .ok g ∧ g.IsShaped ∧
      Outlines (fun a b => a && !b) a.edges b.edges g.polygons ∧ (g = .polygon a ∨ ∀ p ∈ g.polygons, p.Oriented) := by
  obtain ⟨g, h1, h2, h3, h4, -⟩ := holeyDifference_outlines ok (polygonOperand_ok va) (polygonOperand_ok vb) tb rfl trivial
  simp only [polygonOperand, multipolygonOperand, List.flatMap_cons, List.flatMap_nil, List.append_nil] at h3 h4
  exact ⟨g, h1, h2, h3, h4⟩

/-- **C41** `subtract_multipolygon_from_polygon`: the contours of the result are the boundary of the difference. -/
theorem subtractMultipolygonFromPolygon_outlines {o : Orient} (ok : OrientOk o) (tb : TieBreak) {a : Polygon} {b : List Polygon}
    (va : ValidPolygon a) (nb : b ≠ []) (vb : ValidPolygons b) : ∃ g, subtractMultipolygonFromPolygon o tb a b = .ok g ∧ g.IsShaped ∧
      Outlines (fun a b => a && !b) a.edges (b.flatMap Polygon.edges) g.polygons ∧ (g = .polygon a ∨ ∀ p ∈ g.polygons, p.Oriented) := by
  obtain ⟨g, h1, h2, h3, h4, -⟩ := holeyDifference_outlines ok (polygonOperand_ok va) (multipolygonOperand_ok nb vb) tb rfl trivial
  simp only [polygonOperand, multipolygonOperand, List.flatMap_cons, List.flatMap_nil, List.append_nil] at h3 h4
  exact ⟨g, h1, h2, h3, h4⟩

/-- **C41** `subtract_polygon_from_multipolygon`: the contours of the result are the boundary of the difference. -/
theorem subtractPolygonFromMultipolygon_outlines {o : Orient} (ok : OrientOk o) (tb : TieBreak) {a : List Polygon} {b : Polygon}
    (na : a ≠ []) (va : ValidPolygons a) (vb : ValidPolygon b) : ∃ g, subtractPolygonFromMultipolygon o tb a b = .ok g ∧ g.IsShaped ∧
      Outlines (fun a b => a && !b) (a.flatMap Polygon.edges) b.edges g.polygons ∧ (g = .multipolygon a ∨ ∀ p ∈ g.polygons, p.Oriented) := by
  obtain ⟨g, h1, h2, h3, h4, -⟩ := holeyDifference_outlines ok (multipolygonOperand_ok na va) (polygonOperand_ok vb) tb rfl na
  simp only [polygonOperand, multipolygonOperand, List.flatMap_cons, List.flatMap_nil, List.append_nil] at h3 h4
  exact ⟨g, h1, h2, h3, h4⟩

/-- **C41** `subtract_multipolygons`: the contours of the result are the boundary of the difference. -/
theorem subtractMultipolygons_outlines {o : Orient} (ok : OrientOk o) (tb : TieBreak) {a : List Polygon} {b : List Polygon}
    (na : a ≠ []) (va : ValidPolygons a) (nb : b ≠ []) (vb : ValidPolygons b) : ∃ g, subtractMultipolygons o tb a b = .ok g ∧ g.IsShaped ∧
      Outlines (fun a b => a && !b) (a.flatMap Polygon.edges) (b.flatMap Polygon.edges) g.polygons ∧ (g = .multipolygon a ∨ ∀ p ∈ g.polygons, p.Oriented) := by
  obtain ⟨g, h1, h2, h3, h4, -⟩ := holeyDifference_outlines ok (multipolygonOperand_ok na va) (multipolygonOperand_ok nb vb) tb rfl na
  simp only [polygonOperand, multipolygonOperand, List.flatMap_cons, List.flatMap_nil, List.append_nil] at h3 h4
  exact ⟨g, h1, h2, h3, h4⟩

/-! ## Symmetric difference -/

/-- **C41** `symmetric_subtract_polygons`: the contours of the result are the boundary of the symmetric difference. -/
theorem symmetricSubtractPolygons_outlines (tb : TieBreak) {a : Polygon} {b : Polygon}
    (va : ValidPolygon a) (vb : ValidPolygon b) : ∃ g, symmetricSubtractPolygons tb a b = .ok g ∧ g.IsShaped ∧
      Outlines xor a.edges b.edges g.polygons ∧ (g.polygons.Perm ([a] ++ [b]) ∨ ∀ p ∈ g.polygons, p.Oriented) := by
  obtain ⟨g, h1, h2, h3, h4, -⟩ := holeySymmetricDifference_outlines (polygonOperand_ok va) (polygonOperand_ok vb) tb
  simp only [polygonOperand, multipolygonOperand, List.flatMap_cons, List.flatMap_nil, List.append_nil] at h3 h4
  exact ⟨g, h1, h2, h3, h4⟩

/-- **C41** `symmetric_subtract_multipolygon_from_polygon`: the contours of the result are the boundary of the symmetric difference. -/
theorem symmetricSubtractMultipolygonFromPolygon_outlines (tb : TieBreak) {a : Polygon} {b : List Polygon}
    (va : ValidPolygon a) (nb : b ≠ []) (vb : ValidPolygons b) : ∃ g, symmetricSubtractMultipolygonFromPolygon tb a b = .ok g ∧ g.IsShaped ∧
      Outlines xor a.edges (b.flatMap Polygon.edges) g.polygons ∧ (g.polygons.Perm ([a] ++ b) ∨ ∀ p ∈ g.polygons, p.Oriented) := by
  obtain ⟨g, h1, h2, h3, h4, -⟩ := holeySymmetricDifference_outlines (polygonOperand_ok va) (multipolygonOperand_ok nb vb) tb
  simp only [polygonOperand, multipolygonOperand, List.flatMap_cons, List.flatMap_nil, List.append_nil] at h3 h4
  exact ⟨g, h1, h2, h3, h4⟩

/-- **C41** `symmetric_subtract_multipolygons`: the contours of the result are the boundary of the symmetric difference. -/
theorem symmetricSubtractMultipolygons_outlines (tb : TieBreak) {a : List Polygon} {b : List Polygon}
    (na : a ≠ []) (va : ValidPolygons a) (nb : b ≠ []) (vb : ValidPolygons b) : ∃ g, symmetricSubtractMultipolygons tb a b = .ok g ∧ g.IsShaped ∧
      Outlines xor (a.flatMap Polygon.edges) (b.flatMap Polygon.edges) g.polygons ∧ (g.polygons.Perm (a ++ b) ∨ ∀ p ∈ g.polygons, p.Oriented) := by
  obtain ⟨g, h1, h2, h3, h4, -⟩ := holeySymmetricDifference_outlines (multipolygonOperand_ok na va) (multipolygonOperand_ok nb vb) tb
  simp only [polygonOperand, multipolygonOperand, List.flatMap_cons, List.flatMap_nil, List.append_nil] at h3 h4
  exact ⟨g, h1, h2, h3, h4⟩

/-! ## Union -/

/-- **C41** `unite_polygons`: the contours of the result are the boundary of the union. -/
theorem unitePolygons_outlines (tb : TieBreak) {a : Polygon} {b : Polygon}
    (va : ValidPolygon a) (vb : ValidPolygon b) : ∃ g, unitePolygons tb a b = .ok g ∧ g.IsShaped ∧
      Outlines (fun a b => a || b) a.edges b.edges g.polygons ∧ (g.polygons.Perm ([a] ++ [b]) ∨ ∀ p ∈ g.polygons, p.Oriented) := by
  obtain ⟨g, h1, h2, h3, h4, -⟩ := holeyUnion_outlines (polygonOperand_ok va) (polygonOperand_ok vb) tb
  simp only [polygonOperand, multipolygonOperand, List.flatMap_cons, List.flatMap_nil, List.append_nil] at h3 h4
  exact ⟨g, h1, h2, h3, h4⟩

/-- **C41** `unite_polygon_with_multipolygon`: the contours of the result are the boundary of the union. -/
theorem unitePolygonWithMultipolygon_outlines (tb : TieBreak) {a : Polygon} {b : List Polygon}
    (va : ValidPolygon a) (nb : b ≠ []) (vb : ValidPolygons b) : ∃ g, unitePolygonWithMultipolygon tb a b = .ok g ∧ g.IsShaped ∧
      Outlines (fun a b => a || b) a.edges (b.flatMap Polygon.edges) g.polygons ∧ (g.polygons.Perm ([a] ++ b) ∨ ∀ p ∈ g.polygons, p.Oriented) := by
  obtain ⟨g, h1, h2, h3, h4, -⟩ := holeyUnion_outlines (polygonOperand_ok va) (multipolygonOperand_ok nb vb) tb
  simp only [polygonOperand, multipolygonOperand, List.flatMap_cons, List.flatMap_nil, List.append_nil] at h3 h4
  exact ⟨g, h1, h2, h3, h4⟩

/-- **C41** `unite_multipolygons`: the contours of the result are the boundary of the union. -/
theorem uniteMultipolygons_outlines (tb : TieBreak) {a : List Polygon} {b : List Polygon}
    (na : a ≠ []) (va : ValidPolygons a) (nb : b ≠ []) (vb : ValidPolygons b) : ∃ g, uniteMultipolygons tb a b = .ok g ∧ g.IsShaped ∧
      Outlines (fun a b => a || b) (a.flatMap Polygon.edges) (b.flatMap Polygon.edges) g.polygons ∧ (g.polygons.Perm (a ++ b) ∨ ∀ p ∈ g.polygons, p.Oriented) := by
  obtain ⟨g, h1, h2, h3, h4, -⟩ := holeyUnion_outlines (multipolygonOperand_ok na va) (multipolygonOperand_ok nb vb) tb
  simp only [polygonOperand, multipolygonOperand, List.flatMap_cons, List.flatMap_nil, List.append_nil] at h3 h4
  exact ⟨g, h1, h2, h3, h4⟩

/-! ## Examples -/

/-- The frames of the examples of `Properties/Shaped.lean` meet the hypotheses. -/
example (tb : TieBreak) : ∃ g, uniteMultipolygons tb exFrame exFrame' = .ok g ∧ g.IsShaped ∧
    Outlines (fun a b => a || b) (exFrame.flatMap Polygon.edges) (exFrame'.flatMap Polygon.edges) g.polygons ∧
    (g.polygons.Perm (exFrame ++ exFrame') ∨ ∀ p ∈ g.polygons, p.Oriented) :=
  uniteMultipolygons_outlines tb (by simp [exFrame]) exFrame_valid (by simp [exFrame']) exFrame'_valid

example : ∃ g, intersectMultipolygons (Classical.choose exists_orient) TieBreak.id exFrame exFrame' = .ok g ∧ g.IsShaped ∧
    Outlines (fun a b => a && b) (exFrame.flatMap Polygon.edges) (exFrame'.flatMap Polygon.edges) g.polygons ∧
    ∀ p ∈ g.polygons, p.Oriented :=
  intersectMultipolygons_outlines (Classical.choose_spec exists_orient) _ (by simp [exFrame]) exFrame_valid (by simp [exFrame'])
    exFrame'_valid

/-! ## A hole in the wrong polygon

A triangle with an edge which goes down from the left to the right, and two triangles which start at an inner
point of this edge, one above and one below of each other. -/

/-- A triangle. -/
def exTriangle : Polygon := ⟨triangle ⟨-8, 10⟩ ⟨12, -10⟩ ⟨12, 10⟩, []⟩

/-- Two triangles with a common vertex on an edge of `exTriangle`. -/
def exTriangles : List Polygon := [⟨triangle ⟨2, 0⟩ ⟨4, 12⟩ ⟨3, 12⟩, []⟩, ⟨triangle ⟨2, 0⟩ ⟨8, -2⟩ ⟨8, -1⟩, []⟩]

theorem exTriangle_valid : ValidPolygon exTriangle :=
  (triangle_simple (by norm_num [cross])).validPolygon

theorem exTriangles_valid : ValidPolygons exTriangles := by
  refine stacked_valid (v := ⟨2, 0⟩) (triangle_simple (by norm_num [cross])) (triangle_simple (by norm_num [cross]))
    (by decide +kernel) (by decide +kernel) ?_
  rintro q ⟨e, he, t, t0, t1, tx, ty⟩ hq
  rw [triangle_edges] at he
  simp only [List.mem_cons, List.not_mem_nil, or_false] at he
  rcases he with rfl | rfl | rfl <;> simp only at tx ty hq
  · have : t = 0 := by linarith
    rw [this] at tx
    exact Point.ext' (by simpa using tx) hq
  · linarith
  · have : t = 1 := by linarith
    rw [this] at tx
    exact Point.ext' (by rw [tx]; norm_num) hq

/-- The symmetric difference of `exTriangle` and `exTriangles`: the hole which the second of `exTriangles` cuts out belongs
to the second polygon, but is a hole of the first one. -/
theorem exTriangles_result : symmetricSubtractMultipolygonFromPolygon TieBreak.id exTriangle exTriangles = .ok (.multipolygon
    [⟨⟨[⟨-8, 10⟩, ⟨2, 0⟩, ⟨17 / 6, 10⟩]⟩, [⟨[⟨2, 0⟩, ⟨8, -1⟩, ⟨8, -2⟩]⟩]⟩,
      ⟨⟨[⟨2, 0⟩, ⟨12, -10⟩, ⟨12, 10⟩, ⟨11 / 3, 10⟩]⟩, []⟩,
      ⟨⟨[⟨17 / 6, 10⟩, ⟨11 / 3, 10⟩, ⟨4, 12⟩, ⟨3, 12⟩]⟩, []⟩]) := by
  decide +kernel

/-- **C42, negation** The polygons of a symmetric difference may contain points which are inside of both operands: a hole
may be attached to the wrong polygon. -/
theorem symmetricSubtract_not_exact : ¬ ∀ (tb : TieBreak) (a : Polygon) (b : List Polygon) (g : Geometry),
    ValidPolygon a → b ≠ [] → ValidPolygons b → symmetricSubtractMultipolygonFromPolygon tb a b = .ok g →
    ∀ q, q ∉ segsPts (a.edges ++ b.flatMap Polygon.edges) → (q ∈ polysPts g.polygons ↔ ¬ (q ∈ a.pts ↔ q ∈ polysPts b)) := by
  intro h
  have key := h TieBreak.id exTriangle exTriangles _ exTriangle_valid (by simp [exTriangles]) exTriangles_valid exTriangles_result
    ⟨7, -5/4⟩ (by
      rintro ⟨e, he, t, t0, t1, tx, ty⟩
      have hc : cross e.start e.stop ⟨7, -5/4⟩ = 0 := by unfold cross; rw [tx, ty]; ring
      clear tx ty
      revert hc
      revert e
      decide +kernel)
  have i1 : (⟨7, -5/4⟩ : Point) ∈ exTriangle.pts := Or.inr (show Odd _ by decide +kernel)
  have i2 : (⟨7, -5/4⟩ : Point) ∈ polysPts exTriangles := ⟨_, List.mem_cons_of_mem _ List.mem_cons_self, Or.inr (show Odd _ by decide +kernel)⟩
  exact key.1 ⟨_, List.mem_cons_of_mem _ List.mem_cons_self, Or.inr (show Odd _ by decide +kernel)⟩ ⟨fun _ => i2, fun _ => i1⟩

end Clipping
