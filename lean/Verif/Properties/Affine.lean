import Verif.Lemmas.Shaped.Affine
import Verif.Properties.Unique
import Verif.Properties.Complete
import Verif.Properties.Regions

/-!
# C57: operations commute with affine maps

Moving, turning, reflecting (in particular: exchanging the coordinates), stretching or shearing the operands moves, turns, reflects,
stretches or shears the result.  The algorithm is a sweep from left to right with bounding boxes, the course of which is a completely
different one for other positions of the operands.
-/

namespace Clipping

section

variable {o o' : Orient} (ok : OrientOk o) (ok' : OrientOk o') {tb tb' : TieBreak} {v : ℕ → List Polygon}
  (hv : ∀ i, ValidPolygons (v i)) (T : Affine)
include ok ok' hv

/-- **C57** Operations (nested in any way) on images of operands give the image of the region which they give on the operands. -/
theorem expression_affine {x : Expression} {ps qs : List Polygon} (h : x.Yields o tb v ps)
    (h' : x.Yields o' tb' (fun i => (v i).map T.polygon) qs) :
    regionPts (qs.flatMap Polygon.edges) = T.point '' regionPts (ps.flatMap Polygon.edges) :=
  h.affine_region ok ok' hv T h'

/-- **C57** The points of the result on the images are the images of the points of the result, if the results are valid. -/
theorem expression_affine_points {x : Expression} {ps qs : List Polygon} (h : x.Yields o tb v ps)
    (h' : x.Yields o' tb' (fun i => (v i).map T.polygon) qs) (vp : ValidPolygons ps) (vq : ValidPolygons qs) :
    polysPts qs = T.point '' polysPts ps := by
  rw [vp.polysPts_eq, vq.polysPts_eq]
  exact expression_affine ok ok' hv T h h'

/-- **C57** The result on the images is the image of the result up to the way it is written, if the contours of the result do not touch each
other and operands have no superfluous vertices. -/
theorem expression_affine_same (cv : ∀ i, ∀ c ∈ contoursOf (v i), c.Cornered) {x : Expression} {ps qs : List Polygon} (h : x.Yields o tb v ps)
    (h' : x.Yields o' tb' (fun i => (v i).map T.polygon) qs) (vp : ValidPolygons ps) (vq : ValidPolygons qs) (dp : Detached ps) :
    SamePolygons (ps.map T.polygon) qs := by
  have S : Separate ps := ⟨vp, dp, h.cornered ok cv⟩
  refine (polygons_unique (T.separate S) vq (h'.cornered ok' fun i c hc => ?_) ?_).2
  · rw [T.contoursOf_map] at hc
    obtain ⟨d, hd, rfl⟩ := List.mem_map.1 hc
    exact T.cornered (cv i d hd)
  · rw [T.polysPts_map vp, expression_affine_points ok ok' hv T h h' vp vq]

/-- **C57** The result on the images is the image of the result, vertex by vertex, if the map preserves the directions of the
coordinates, the contours of the result do not touch each other and the operands are in normal form. -/
theorem expression_affine_equal {T : Affine} (hT : T.Upright) (sv : ∀ i, Standard (v i)) {x : Expression} {ps qs : List Polygon}
    (h : x.Yields o tb v ps) (h' : x.Yields o' tb' (fun i => (v i).map T.polygon) qs) (vp : ValidPolygons ps) (vq : ValidPolygons qs)
    (dp : Detached ps) : qs = ps.map T.polygon := by
  refine (polygons_equal (T.valid_polygons vp) (T.detached dp) (hT.standard (h.contours ok hv) (h.standard ok sv)) vq (h'.standard ok' ?_) ?_).symm
  · exact fun i => hT.standard (Expression.Yields.contours ok hv (.operand (o := o) (tb := tb) i)) (sv i)
  · rw [T.polysPts_map vp, expression_affine_points ok ok' hv T h h' vp vq]

end

section

variable {o o' : Orient} (ok : OrientOk o) (ok' : OrientOk o') (tb tb' : TieBreak) (k : Operation) {a b : List Polygon}
  (va : ValidPolygons a) (vb : ValidPolygons b) (T : Affine)
include ok ok' va vb

/-- **C57** A single operation: the region of the result on the images is the image of the region of the result. -/
theorem operation_affine : ∃ g g', k.call o tb a b = .ok g ∧ k.call o' tb' (a.map T.polygon) (b.map T.polygon) = .ok g' ∧
    regionPts (g'.polygons.flatMap Polygon.edges) = T.point '' regionPts (g.polygons.flatMap Polygon.edges) := by
  obtain ⟨g, e, -⟩ := Operation.call_outlines ok tb k va vb
  obtain ⟨g', e', -⟩ := Operation.call_outlines ok' tb' k (T.valid_polygons va) (T.valid_polygons vb)
  refine ⟨g, g', e, e', ?_⟩
  refine expression_affine ok ok' (tb := tb) (tb' := tb') (v := operands a b a) (operands_valid va vb va) T
    (x := .apply k (.operand 0) (.operand 1)) (.apply k (.operand 0) (.operand 1) va vb e) ?_
  exact .apply k (.operand 0) (.operand 1) (T.valid_polygons va) (T.valid_polygons vb) e'

/-- **C57** A single operation on operands the contours of which do not touch each other: the points of the result on the images are
the images of the points of the result. -/
theorem operation_affine_points (da : Detached a) (db : Detached b) : ∃ g g', k.call o tb a b = .ok g ∧
    k.call o' tb' (a.map T.polygon) (b.map T.polygon) = .ok g' ∧ polysPts g'.polygons = T.point '' polysPts g.polygons := by
  obtain ⟨g, g', e, e', h⟩ := operation_affine ok ok' tb tb' k va vb T
  refine ⟨g, g', e, e', ?_⟩
  rw [(Operation.call_valid ok tb k va vb da db e).polysPts_eq, ← h,
    (Operation.call_valid ok' tb' k (T.valid_polygons va) (T.valid_polygons vb) (T.detached da) (T.detached db) e').polysPts_eq]

/-- **C57** A single operation on operands in normal form the contours of which do not touch each other, and a map which preserves the
directions of the coordinates: the result on the images is the image of the result, vertex by vertex, if the contours of the result do not
touch each other. -/
theorem operation_affine_equal (da : Detached a) (db : Detached b) (sa : Standard a) (sb : Standard b) {T : Affine} (hT : T.Upright) :
    ∃ g g', k.call o tb a b = .ok g ∧ k.call o' tb' (a.map T.polygon) (b.map T.polygon) = .ok g' ∧
      (Detached g.polygons → g'.polygons = g.polygons.map T.polygon) := by
  obtain ⟨g, g', e, e', -⟩ := operation_affine ok ok' tb tb' k va vb T
  refine ⟨g, g', e, e', fun dg => ?_⟩
  refine expression_affine_equal ok ok' (tb := tb) (tb' := tb') (v := operands a b a) (operands_valid va vb va) hT
    (operands_standard sa sb sa) (x := .apply k (.operand 0) (.operand 1)) (.apply k (.operand 0) (.operand 1) va vb e) ?_
    (Operation.call_valid ok tb k va vb da db e)
    (Operation.call_valid ok' tb' k (T.valid_polygons va) (T.valid_polygons vb) (T.detached da) (T.detached db) e') dg
  exact .apply k (.operand 0) (.operand 1) (T.valid_polygons va) (T.valid_polygons vb) e'

end

/-! ## Complete intersections -/

theorem Outlines.affine {op : Bool → Bool → Bool} {A B A' B' : List Segment} {ps qs : List Polygon} (T : Affine) (O : Outlines op A B ps)
    (O' : Outlines op A' B' qs) (hA : ∀ s ∈ A ++ B, s.Proper) (eA : A' = A.map T.segment) (eB : B' = B.map T.segment)
    (iA : ∀ z, z ∉ segsPts A → (Inside A' (T.point z) ↔ Inside A z)) (iB : ∀ z, z ∉ segsPts B → (Inside B' (T.point z) ↔ Inside B z)) :
    regionPts (qs.flatMap Polygon.edges) = T.point '' regionPts (ps.flatMap Polygon.edges) := by
  have C : ∀ c ∈ contoursOf ps, SimpleContour c := by
    intro c hc
    obtain ⟨p, hp, hc⟩ := List.mem_flatMap.1 hc
    rcases List.mem_cons.1 hc with rfl | hc
    · exact O.border p hp
    · exact O.hole p hp c hc
  rw [← T.region_polygons C]
  refine regionPts_eq_of_inside O'.noOverlap O'.even ?_ ?_ (X := (A ++ B ++ ps.flatMap Polygon.edges).map T.segment) ?_ ?_
  · rw [Affine.polygons_edges]
    exact T.noOverlap O.noOverlap
  · refine flatMap_even fun p hp q => ?_
    obtain ⟨p, hp', rfl⟩ := List.mem_map.1 hp
    rw [Affine.edges_contours]
    have : ∀ c ∈ (T.polygon p).border :: (T.polygon p).holes, SimpleContour c := by
      intro c hc
      rw [show (T.polygon p).border :: (T.polygon p).holes = (p.border :: p.holes).map T.contour from rfl] at hc
      obtain ⟨d, hd, rfl⟩ := List.mem_map.1 hc
      exact T.simple (C d (List.mem_flatMap.2 ⟨p, hp', hd⟩))
    generalize (T.polygon p).border :: (T.polygon p).holes = l at this
    induction l with
    | nil => simp [degree]
    | cons c l ih =>
      rw [List.flatMap_cons, degree_append]
      exact ((this c (by simp)).even q).add (ih fun c hc => this c (by simp [hc]))
  · intro s hs
    obtain ⟨t, ht, rfl⟩ := List.mem_map.1 hs
    refine T.proper.2 ?_
    rcases List.mem_append.1 ht with g | g
    · exact hA t g
    · exact O.noOverlap.1 t g
  · intro q hq
    obtain ⟨q, rfl⟩ := T.surjective q
    rw [Affine.segsPts_map, Affine.mem_image, segsPts_append, segsPts_append] at hq
    simp only [Set.mem_union, not_or] at hq
    have n : q ∉ segsPts (A ++ B) := by simp only [segsPts_append, Set.mem_union, not_or]; exact hq.1
    have n' : T.point q ∉ segsPts (A' ++ B') := by rwa [eA, eB, ← List.map_append, Affine.segsPts_map, Affine.mem_image]
    rw [O'.inside _ n', T.inside_polygons C hq.2, O.inside q n]
    unfold Combined
    simp only [iA q hq.1.1, iB q hq.1.2]

theorem ValidPolygon.inside_image {p : Polygon} (h : ValidPolygon p) (T : Affine) (z : Point) (hz : z ∉ segsPts p.edges) :
    Inside (T.polygon p).edges (T.point z) ↔ Inside p.edges z := by
  rw [Affine.polygon_edges, Affine.edges_contours] at *
  refine T.inside_contours (fun c hc => ?_) hz
  rcases List.mem_cons.1 hc with rfl | hc
  · exact h.border
  · exact h.holes c hc

theorem ValidPolygons.inside_image {ps : List Polygon} (h : ValidPolygons ps) (T : Affine) (z : Point)
    (hz : z ∉ segsPts (ps.flatMap Polygon.edges)) :
    Inside ((ps.map T.polygon).flatMap Polygon.edges) (T.point z) ↔ Inside (ps.flatMap Polygon.edges) z := by
  refine T.inside_polygons (fun c hc => ?_) hz
  obtain ⟨p, hp, hc⟩ := List.mem_flatMap.1 hc
  rcases List.mem_cons.1 hc with rfl | hc
  · exact (h.valid p hp).border
  · exact (h.valid p hp).holes c hc

theorem ValidPolygon.pts_image {p : Polygon} (h : ValidPolygon p) (T : Affine) : (T.polygon p).pts = T.point '' p.pts := by
  rw [← polysPts_singleton, ← polysPts_singleton]
  exact T.polysPts_map h.validPolygons

theorem proper_edges {A B : List Segment} (hA : NoOverlap A) (hB : NoOverlap B) : ∀ s ∈ A ++ B, s.Proper := fun s hs =>
  (List.mem_append.1 hs).elim (hA.1 s) (hB.1 s)

section

variable {o o' : Orient} (ok : OrientOk o) (ok' : OrientOk o') (tb tb' : TieBreak) (T : Affine)
include ok ok'

/-- **C57** `complete_intersect_polygons` -/
theorem completeIntersectPolygons_affine {a b : Polygon} (va : ValidPolygon a) (vb : ValidPolygon b) :
    ∃ g g', completeIntersectPolygons o tb a b = .ok g ∧ completeIntersectPolygons o' tb' (T.polygon a) (T.polygon b) = .ok g' ∧
      PartsImage T g g' := by
  obtain ⟨g, e, -, O, -, C⟩ := completeIntersectPolygons_parts ok tb va vb
  obtain ⟨g', e', -, O', -, C'⟩ := completeIntersectPolygons_parts ok' tb' (T.valid va) (T.valid vb)
  have R := O.affine T O' (proper_edges va.noOverlap vb.noOverlap) (T.polygon_edges a) (T.polygon_edges b) (va.inside_image T)
    (vb.inside_image T)
  rw [va.pts_image T, vb.pts_image T] at C'
  obtain ⟨h1, h2⟩ := T.completeParts C O.noOverlap O.even C' O'.noOverlap O'.even R
  exact ⟨g, g', e, e', h1, h2, R⟩

/-- **C57** `complete_intersect_polygon_with_multipolygon` -/
theorem completeIntersectPolygonWithMultipolygon_affine {a : Polygon} {b : List Polygon} (va : ValidPolygon a) (nb : b ≠ [])
    (vb : ValidPolygons b) :
    ∃ g g', completeIntersectPolygonWithMultipolygon o tb a b = .ok g ∧
      completeIntersectPolygonWithMultipolygon o' tb' (T.polygon a) (b.map T.polygon) = .ok g' ∧ PartsImage T g g' := by
  obtain ⟨g, e, -, O, -, C⟩ := completeIntersectPolygonWithMultipolygon_parts ok tb va nb vb
  obtain ⟨g', e', -, O', -, C'⟩ := completeIntersectPolygonWithMultipolygon_parts ok' tb' (T.valid va) (by simpa using nb)
    (T.valid_polygons vb)
  have R := O.affine T O' (proper_edges va.noOverlap vb.noOverlap) (T.polygon_edges a) (T.polygons_edges b) (va.inside_image T)
    (vb.inside_image T)
  rw [va.pts_image T, T.polysPts_map vb] at C'
  obtain ⟨h1, h2⟩ := T.completeParts C O.noOverlap O.even C' O'.noOverlap O'.even R
  exact ⟨g, g', e, e', h1, h2, R⟩

/-- **C57** `complete_intersect_multipolygons` -/
theorem completeIntersectMultipolygons_affine {a b : List Polygon} (na : a ≠ []) (va : ValidPolygons a) (nb : b ≠ [])
    (vb : ValidPolygons b) :
    ∃ g g', completeIntersectMultipolygons o tb a b = .ok g ∧
      completeIntersectMultipolygons o' tb' (a.map T.polygon) (b.map T.polygon) = .ok g' ∧ PartsImage T g g' := by
  obtain ⟨g, e, -, O, -, C⟩ := completeIntersectMultipolygons_parts ok tb na va nb vb
  obtain ⟨g', e', -, O', -, C'⟩ := completeIntersectMultipolygons_parts ok' tb' (by simpa using na) (T.valid_polygons va)
    (by simpa using nb) (T.valid_polygons vb)
  have R := O.affine T O' (proper_edges va.noOverlap vb.noOverlap) (T.polygons_edges a) (T.polygons_edges b) (va.inside_image T)
    (vb.inside_image T)
  rw [T.polysPts_map va, T.polysPts_map vb] at C'
  obtain ⟨h1, h2⟩ := T.completeParts C O.noOverlap O.even C' O'.noOverlap O'.even R
  exact ⟨g, g', e, e', h1, h2, R⟩

end

/-! ## Regions -/

theorem regionPolygons_image (T : Affine) (cs : List Contour) : regionPolygons (cs.map T.contour) = (regionPolygons cs).map T.polygon := by
  unfold regionPolygons
  rw [List.map_map, List.map_map]
  rfl

theorem ValidRegions.pts_image {cs : List Contour} (h : ValidRegions cs) (T : Affine) :
    regionsPts (cs.map T.contour) = T.point '' regionsPts cs := by
  rw [← polysPts_regions, ← polysPts_regions, regionPolygons_image, T.polysPts_map h.polygons]

theorem ValidRegions.image {cs : List Contour} (h : ValidRegions cs) (T : Affine) : ValidRegions (cs.map T.contour) where
  simple := by
    intro c hc
    obtain ⟨d, hd, rfl⟩ := List.mem_map.1 hc
    exact T.simple (h.simple d hd)
  noOverlap := by
    have e : (cs.map T.contour).flatMap Contour.edges = (cs.flatMap Contour.edges).map T.segment := by
      rw [List.map_flatMap, List.flatMap_map]
      simp only [Affine.contour_edges]
    rw [e]
    exact T.noOverlap h.noOverlap
  apart := by
    rw [List.pairwise_map]
    refine List.Pairwise.imp_of_mem ?_ h.apart
    intro c d hc hd g
    have e : ∀ c : Contour, segsPts (T.contour c).edges = T.point '' segsPts c.edges := fun c => by rw [T.contour_edges, T.segsPts_map]
    exact ⟨T.apart (T.region_contour (h.simple c hc)) (e d) (T.region_contour (h.simple d hd)) g.1,
      T.apart (T.region_contour (h.simple d hd)) (e c) (T.region_contour (h.simple c hc)) g.2⟩

theorem regions_edges_image (T : Affine) (cs : List Contour) :
    (cs.map T.contour).flatMap Contour.edges = (cs.flatMap Contour.edges).map T.segment := by
  rw [List.map_flatMap, List.flatMap_map]
  simp only [Affine.contour_edges]

section

variable {o o' : Orient} (ok : OrientOk o) (ok' : OrientOk o') (tb tb' : TieBreak) (T : Affine)
include ok ok'

theorem holelessIntersection_affine {P Q : List Contour} (nP : P ≠ []) (hP : ValidRegions P) (nQ : Q ≠ []) (hQ : ValidRegions Q) :
    ∃ g g', holelessIntersection o tb P Q = .ok g ∧ holelessIntersection o' tb' (P.map T.contour) (Q.map T.contour) = .ok g' ∧
      polysPts g'.polygons = T.point '' polysPts g.polygons := by
  obtain ⟨g, e, -, -, -, h⟩ := holelessIntersection_exact ok tb nP hP nQ hQ
  obtain ⟨g', e', -, -, -, h'⟩ := holelessIntersection_exact ok' tb' (by simpa using nP) (hP.image T) (by simpa using nQ) (hQ.image T)
  refine ⟨g, g', e, e', ?_⟩
  rw [h', h, hP.pts_image, hQ.pts_image, regions_edges_image, regions_edges_image, ← List.map_append, ← Set.image_inter T.injective,
    T.closureOff_map]

theorem holelessCompleteIntersection_affine {P Q : List Contour} (nP : P ≠ []) (hP : ValidRegions P) (nQ : Q ≠ []) (hQ : ValidRegions Q) :
    ∃ g g', holelessCompleteIntersection o tb P Q = .ok g ∧
      holelessCompleteIntersection o' tb' (P.map T.contour) (Q.map T.contour) = .ok g' ∧ PartsImage T g g' := by
  obtain ⟨g, e, -, O, -, -, V, C⟩ := holelessCompleteIntersection_parts ok hP.polygons hQ.polygons nP nQ tb
  obtain ⟨g', e', -, O', -, -, V', C'⟩ := holelessCompleteIntersection_parts ok' (hP.image T).polygons (hQ.image T).polygons
    (by simpa using nP) (by simpa using nQ) tb'
  rw [regionPolygons_image, regionPolygons_image] at O' C'
  rw [T.polysPts_map hP.polygons, T.polysPts_map hQ.polygons] at C'
  have R := O.affine T O' (proper_edges hP.polygons.noOverlap hQ.polygons.noOverlap) (T.polygons_edges _) (T.polygons_edges _)
    (hP.polygons.inside_image T) (hQ.polygons.inside_image T)
  rw [V.polysPts_eq] at C
  rw [V'.polysPts_eq] at C'
  obtain ⟨h1, h2⟩ := T.completeParts C O.noOverlap O.even C' O'.noOverlap O'.even R
  exact ⟨g, g', e, e', h1, h2, R⟩

/-- **C57** `intersect_regions` -/
theorem intersectRegions_affine {a b : Contour} (va : SimpleContour a) (vb : SimpleContour b) :
    ∃ g g', intersectRegions o tb a b = .ok g ∧ intersectRegions o' tb' (T.contour a) (T.contour b) = .ok g' ∧
      polysPts g'.polygons = T.point '' polysPts g.polygons :=
  holelessIntersection_affine ok ok' tb tb' T (by simp) (validRegions_single va) (by simp) (validRegions_single vb)

/-- **C57** `intersect_region_with_multiregion` -/
theorem intersectRegionWithMultiregion_affine {a : Contour} {b : List Contour} (va : SimpleContour a) (nb : b ≠ []) (vb : ValidRegions b) :
    ∃ g g', intersectRegionWithMultiregion o tb a b = .ok g ∧
      intersectRegionWithMultiregion o' tb' (T.contour a) (b.map T.contour) = .ok g' ∧
      polysPts g'.polygons = T.point '' polysPts g.polygons :=
  holelessIntersection_affine ok ok' tb tb' T (by simp) (validRegions_single va) nb vb

/-- **C57** `intersect_multiregions` -/
theorem intersectMultiregions_affine {a b : List Contour} (na : a ≠ []) (va : ValidRegions a) (nb : b ≠ []) (vb : ValidRegions b) :
    ∃ g g', intersectMultiregions o tb a b = .ok g ∧ intersectMultiregions o' tb' (a.map T.contour) (b.map T.contour) = .ok g' ∧
      polysPts g'.polygons = T.point '' polysPts g.polygons :=
  holelessIntersection_affine ok ok' tb tb' T na va nb vb

/-- **C57** `complete_intersect_regions` -/
theorem completeIntersectRegions_affine {a b : Contour} (va : SimpleContour a) (vb : SimpleContour b) :
    ∃ g g', completeIntersectRegions o tb a b = .ok g ∧ completeIntersectRegions o' tb' (T.contour a) (T.contour b) = .ok g' ∧
      PartsImage T g g' :=
  holelessCompleteIntersection_affine ok ok' tb tb' T (by simp) (validRegions_single va) (by simp) (validRegions_single vb)

/-- **C57** `complete_intersect_region_with_multiregion` -/
theorem completeIntersectRegionWithMultiregion_affine {a : Contour} {b : List Contour} (va : SimpleContour a) (nb : b ≠ [])
    (vb : ValidRegions b) : ∃ g g', completeIntersectRegionWithMultiregion o tb a b = .ok g ∧
      completeIntersectRegionWithMultiregion o' tb' (T.contour a) (b.map T.contour) = .ok g' ∧ PartsImage T g g' :=
  holelessCompleteIntersection_affine ok ok' tb tb' T (by simp) (validRegions_single va) nb vb

/-- **C57** `complete_intersect_multiregions` -/
theorem completeIntersectMultiregions_affine {a b : List Contour} (na : a ≠ []) (va : ValidRegions a) (nb : b ≠ []) (vb : ValidRegions b) :
    ∃ g g', completeIntersectMultiregions o tb a b = .ok g ∧
      completeIntersectMultiregions o' tb' (a.map T.contour) (b.map T.contour) = .ok g' ∧ PartsImage T g g' :=
  holelessCompleteIntersection_affine ok ok' tb tb' T na va nb vb

end

/-! ## Examples -/

/-- The hypotheses are met: a square with a hole and the square moved by (2, 1), with exchanged coordinates. -/
example (tb tb' : TieBreak) : ∃ g g', Operation.union.call (Classical.choose exists_orient) tb exStandard
      (exStandard.map (Affine.translation 2 1).polygon) = .ok g ∧
    Operation.union.call (Classical.choose exists_orient) tb' (exStandard.map Affine.reversal.polygon)
      ((exStandard.map (Affine.translation 2 1).polygon).map Affine.reversal.polygon) = .ok g' ∧
    polysPts g'.polygons = Affine.reversal.point '' polysPts g.polygons :=
  operation_affine_points (Classical.choose_spec exists_orient) (Classical.choose_spec exists_orient) tb tb' .union exStandard_valid
    ((Affine.translation 2 1).valid_polygons exStandard_valid) Affine.reversal exStandard_detached
    ((Affine.translation 2 1).detached exStandard_detached)

theorem translation_upright (x y : ℚ) : (Affine.translation x y).Upright := ⟨rfl, one_pos, one_pos⟩

/-- What is meant by moving, turning and reflecting: the map with exchanged coordinates takes (1, 2) to (2, 1). -/
example : Affine.reversal.point ⟨1, 2⟩ = ⟨2, 1⟩ ∧ (Affine.translation 2 1).point ⟨1, 2⟩ = ⟨3, 3⟩ := by decide +kernel

/-- The intersection of the square with a hole and itself, moved by (5, 0): the result is moved, vertex by vertex. -/
example (tb tb' : TieBreak) : ∃ g g', Operation.intersection.call (Classical.choose exists_orient) tb exStandard exStandard = .ok g ∧
    Operation.intersection.call (Classical.choose exists_orient) tb' (exStandard.map (Affine.translation 5 0).polygon)
      (exStandard.map (Affine.translation 5 0).polygon) = .ok g' ∧ g'.polygons = g.polygons.map (Affine.translation 5 0).polygon ∧
    g.polygons = exStandard := by
  have ok := Classical.choose_spec exists_orient
  obtain ⟨g, g', e, e', h⟩ := operation_affine_equal ok ok tb tb' .intersection exStandard_valid exStandard_valid
    exStandard_detached exStandard_detached exStandard_standard exStandard_standard (translation_upright 5 0)
  obtain ⟨-, g1, e1, h1⟩ := self_equal ok (tb := tb) exStandard_valid exStandard_standard exStandard_detached
  rw [e] at e1
  obtain rfl := Except.ok.inj e1
  exact ⟨g, g', e, e', h (by rw [h1]; exact exStandard_detached), h1⟩

/-- A square and the square on the right of it, with exchanged coordinates: the common edge is reflected. -/
example (tb tb' : TieBreak) : ∃ g g', completeIntersectMultipolygons (Classical.choose exists_orient) tb exFrame exFrameRight = .ok g ∧
    completeIntersectMultipolygons (Classical.choose exists_orient) tb' (exFrame.map Affine.reversal.polygon)
      (exFrameRight.map Affine.reversal.polygon) = .ok g' ∧ PartsImage Affine.reversal g g' :=
  completeIntersectMultipolygons_affine (Classical.choose_spec exists_orient) (Classical.choose_spec exists_orient) tb tb'
    Affine.reversal (by simp [exFrame]) exFrame_valid (by simp [exFrameRight]) exFrameRight_valid

end Clipping
