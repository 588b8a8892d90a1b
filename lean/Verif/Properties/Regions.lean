import Verif.Lemmas.Shaped.RegionsResult
import Verif.Spec.Regions
import Verif.Properties.PolygonsExact

/-!
# C45, C46: intersections of regions and multiregions

Regions do not have holes.  Neither does their common interior: thus no contour of the result is within another one, and
the results are valid and exact for all valid operands (compare `Properties/PolygonsExact.lean` for polygons).
-/

namespace Clipping

theorem validRegions_single {c : Contour} (h : SimpleContour c) : ValidRegions [c] :=
  ⟨by simpa using h, by simpa using h.noOverlap, by simp⟩

theorem ValidRegions.polygons {cs : List Contour} (h : ValidRegions cs) : ValidPolygons (regionPolygons cs) := by
  refine ⟨?_, ?_, ?_⟩
  · intro p hp
    unfold regionPolygons at hp
    obtain ⟨c, hc, rfl⟩ := List.mem_map.1 hp
    exact (h.simple c hc).validPolygon
  · rw [Selected.RegionsInv.flatMap_edges]; exact h.noOverlap
  · unfold regionPolygons
    rw [List.pairwise_map]
    simp only [Selected.RegionsInv.region_edges]
    exact h.apart

theorem polysPts_regions (cs : List Contour) : polysPts (regionPolygons cs) = regionsPts cs := by
  unfold regionPolygons
  ext q
  constructor
  · rintro ⟨p, hp, hq⟩
    obtain ⟨c, hc, rfl⟩ := List.mem_map.1 hp
    rw [polygon_pts_eq, Selected.RegionsInv.region_edges] at hq
    exact ⟨c, hc, hq⟩
  · rintro ⟨c, hc, hq⟩
    refine ⟨_, List.mem_map.2 ⟨c, hc, rfl⟩, ?_⟩
    rw [polygon_pts_eq, Selected.RegionsInv.region_edges]
    exact hq

theorem regionsPts_single (c : Contour) : regionsPts [c] = regionPts c.edges := by
  ext q; simp [regionsPts]

theorem holelessIntersection_exact {o : Orient} (ok : OrientOk o) (tb : TieBreak) {P Q : List Contour} (nP : P ≠ [])
    (hP : ValidRegions P) (nQ : Q ≠ []) (hQ : ValidRegions Q) :
    ∃ g, holelessIntersection o tb P Q = .ok g ∧ g.IsShaped ∧ ValidPolygons g.polygons ∧
      (∀ p ∈ g.polygons, p.holes = [] ∧ p.Oriented) ∧
      polysPts g.polygons = closureOff (P.flatMap Contour.edges ++ Q.flatMap Contour.edges) (regionsPts P ∩ regionsPts Q) := by
  obtain ⟨cs, h1, O, R, V⟩ := holelessIntersection_outlines ok hP.polygons hQ.polygons nP nQ tb
  have E := O.exact_inter hP.polygons hQ.polygons V
  rw [Selected.RegionsInv.flatMap_edges, Selected.RegionsInv.flatMap_edges, polysPts_regions P, polysPts_regions Q] at E
  refine ⟨_, h1, ?_⟩
  rw [unpackRegions_eq, unpackPolygons_polygons]
  refine ⟨unpackPolygons_isShaped _, V, fun p hp => ⟨?_, R p hp⟩, E⟩
  unfold regionPolygons at hp
  obtain ⟨c, -, rfl⟩ := List.mem_map.1 hp
  rfl

theorem holelessCompleteIntersection_exact {o : Orient} (ok : OrientOk o) (tb : TieBreak) {P Q : List Contour} (nP : P ≠ [])
    (hP : ValidRegions P) (nQ : Q ≠ []) (hQ : ValidRegions Q) :
    ∃ g, holelessCompleteIntersection o tb P Q = .ok g ∧ g.Canonical ∧ g.pts = regionsPts P ∩ regionsPts Q ∧
      ValidPolygons g.shapedPolygons ∧ (∀ p ∈ g.shapedPolygons, p.holes = [] ∧ p.Oriented) ∧
      CompleteParts (regionsPts P) (regionsPts Q) g.discretePoints g.linearSegments (polysPts g.shapedPolygons) := by
  obtain ⟨g, h1, h2, -, R, h5, V, C⟩ := holelessCompleteIntersection_parts ok hP.polygons hQ.polygons nP nQ tb
  rw [polysPts_regions P, polysPts_regions Q] at C
  refine ⟨g, h1, h2, ?_, V, fun p hp => ⟨h5 p hp, R p hp⟩, C⟩
  rw [h2.pts_eq]
  ext q
  rw [Set.mem_inter_iff, ← C.all q]
  simp only [Set.mem_union, or_assoc]
  rfl

/-- **C45** `intersect_regions`: the result is valid, without holes, directed counterclockwise, and has exactly the points of the
intersection, up to parts of lower dimension. -/
theorem intersectRegions_exact {o : Orient} (ok : OrientOk o) (tb : TieBreak) {a : Contour} {b : Contour}
    (va : SimpleContour a) (vb : SimpleContour b) :
    ∃ g, intersectRegions o tb a b = .ok g ∧ g.IsShaped ∧ ValidPolygons g.polygons ∧
      (∀ p ∈ g.polygons, p.holes = [] ∧ p.Oriented) ∧
      polysPts g.polygons = closureOff (a.edges ++ b.edges) (regionPts a.edges ∩ regionPts b.edges) := by
  obtain ⟨g, h1, h2, h3, h4, h5⟩ := holelessIntersection_exact ok tb (P := [a]) (Q := [b]) (by simp) (validRegions_single va) (by simp) (validRegions_single vb)
  simp only [List.flatMap_cons, List.flatMap_nil, List.append_nil, regionsPts_single] at h5
  exact ⟨g, h1, h2, h3, h4, h5⟩

/-- **C46** `complete_intersect_regions`: the result has exactly the common points, its polygons are valid and without holes,
and its parts meet in ends of segments only. -/
theorem completeIntersectRegions_exact {o : Orient} (ok : OrientOk o) (tb : TieBreak) {a : Contour} {b : Contour}
    (va : SimpleContour a) (vb : SimpleContour b) :
    ∃ g, completeIntersectRegions o tb a b = .ok g ∧ g.Canonical ∧ g.pts = regionPts a.edges ∩ regionPts b.edges ∧
      ValidPolygons g.shapedPolygons ∧ (∀ p ∈ g.shapedPolygons, p.holes = [] ∧ p.Oriented) ∧
      CompleteParts (regionPts a.edges) (regionPts b.edges) g.discretePoints g.linearSegments (polysPts g.shapedPolygons) := by
  obtain ⟨g, h1, h2, h3, h4, h5, h6⟩ := holelessCompleteIntersection_exact ok tb (P := [a]) (Q := [b]) (by simp) (validRegions_single va) (by simp) (validRegions_single vb)
  simp only [regionsPts_single] at h3 h6
  exact ⟨g, h1, h2, h3, h4, h5, h6⟩

/-- **C45** `intersect_region_with_multiregion`: the result is valid, without holes, directed counterclockwise, and has exactly the points of the
intersection, up to parts of lower dimension. -/
theorem intersectRegionWithMultiregion_exact {o : Orient} (ok : OrientOk o) (tb : TieBreak) {a : Contour} {b : List Contour}
    (va : SimpleContour a) (nb : b ≠ []) (vb : ValidRegions b) :
    ∃ g, intersectRegionWithMultiregion o tb a b = .ok g ∧ g.IsShaped ∧ ValidPolygons g.polygons ∧
      (∀ p ∈ g.polygons, p.holes = [] ∧ p.Oriented) ∧
      polysPts g.polygons = closureOff (a.edges ++ b.flatMap Contour.edges) (regionPts a.edges ∩ regionsPts b) := by
  obtain ⟨g, h1, h2, h3, h4, h5⟩ := holelessIntersection_exact ok tb (P := [a]) (Q := b) (by simp) (validRegions_single va) nb (vb)
  simp only [List.flatMap_cons, List.flatMap_nil, List.append_nil, regionsPts_single] at h5
  exact ⟨g, h1, h2, h3, h4, h5⟩

/-- **C46** `complete_intersect_region_with_multiregion`: the result has exactly the common points, its polygons are valid and without holes,
and its parts meet in ends of segments only. -/
theorem completeIntersectRegionWithMultiregion_exact {o : Orient} (ok : OrientOk o) (tb : TieBreak) {a : Contour} {b : List Contour}
    (va : SimpleContour a) (nb : b ≠ []) (vb : ValidRegions b) :
    ∃ g, completeIntersectRegionWithMultiregion o tb a b = .ok g ∧ g.Canonical ∧ g.pts = regionPts a.edges ∩ regionsPts b ∧
      ValidPolygons g.shapedPolygons ∧ (∀ p ∈ g.shapedPolygons, p.holes = [] ∧ p.Oriented) ∧
      CompleteParts (regionPts a.edges) (regionsPts b) g.discretePoints g.linearSegments (polysPts g.shapedPolygons) := by
  obtain ⟨g, h1, h2, h3, h4, h5, h6⟩ := holelessCompleteIntersection_exact ok tb (P := [a]) (Q := b) (by simp) (validRegions_single va) nb (vb)
  simp only [regionsPts_single] at h3 h6
  exact ⟨g, h1, h2, h3, h4, h5, h6⟩

/-- **C45** `intersect_multiregions`: the result is valid, without holes, directed counterclockwise, and has exactly the points of the
intersection, up to parts of lower dimension. -/
theorem intersectMultiregions_exact {o : Orient} (ok : OrientOk o) (tb : TieBreak) {a : List Contour} {b : List Contour}
    (na : a ≠ []) (va : ValidRegions a) (nb : b ≠ []) (vb : ValidRegions b) :
    ∃ g, intersectMultiregions o tb a b = .ok g ∧ g.IsShaped ∧ ValidPolygons g.polygons ∧
      (∀ p ∈ g.polygons, p.holes = [] ∧ p.Oriented) ∧
      polysPts g.polygons = closureOff (a.flatMap Contour.edges ++ b.flatMap Contour.edges) (regionsPts a ∩ regionsPts b) := by
  obtain ⟨g, h1, h2, h3, h4, h5⟩ := holelessIntersection_exact ok tb (P := a) (Q := b) na (va) nb (vb)
  exact ⟨g, h1, h2, h3, h4, h5⟩

/-- **C46** `complete_intersect_multiregions`: the result has exactly the common points, its polygons are valid and without holes,
and its parts meet in ends of segments only. -/
theorem completeIntersectMultiregions_exact {o : Orient} (ok : OrientOk o) (tb : TieBreak) {a : List Contour} {b : List Contour}
    (na : a ≠ []) (va : ValidRegions a) (nb : b ≠ []) (vb : ValidRegions b) :
    ∃ g, completeIntersectMultiregions o tb a b = .ok g ∧ g.Canonical ∧ g.pts = regionsPts a ∩ regionsPts b ∧
      ValidPolygons g.shapedPolygons ∧ (∀ p ∈ g.shapedPolygons, p.holes = [] ∧ p.Oriented) ∧
      CompleteParts (regionsPts a) (regionsPts b) g.discretePoints g.linearSegments (polysPts g.shapedPolygons) := by
  obtain ⟨g, h1, h2, h3, h4, h5, h6⟩ := holelessCompleteIntersection_exact ok tb (P := a) (Q := b) na (va) nb (vb)
  exact ⟨g, h1, h2, h3, h4, h5, h6⟩

/-! ## Examples -/

/-- Two squares which cross: the result is not empty. -/
example (tb : TieBreak) : ∃ g, intersectRegions (Classical.choose exists_orient) tb (squareContour 0 0 2) (squareContour 1 1 2) =
    .ok g ∧ g.polygons ≠ [] := by
  have s : ∀ x, SimpleContour (squareContour x x 2) := fun x => squareContour_simple (by norm_num)
  obtain ⟨g, h1, -, -, -, h5⟩ := intersectRegions_exact (Classical.choose_spec exists_orient) tb (s 0) (s 1)
  refine ⟨g, h1, fun hn => ?_⟩
  have : (⟨3 / 2, 3 / 2⟩ : Point) ∈ polysPts g.polygons := by
    rw [h5]
    intro δ hδ
    refine ⟨_, Near.refl hδ _, ?_, ?_, ?_⟩
    · rw [segsPts_append]
      rintro (h | h) <;> rw [square_segsPts (by norm_num)] at h <;> norm_num at h
    · rw [square_region (by norm_num)]; norm_num
    · rw [square_region (by norm_num)]; norm_num
  rw [hn] at this
  obtain ⟨p, hp, -⟩ := this
  cases hp

/-- Two squares with a common edge: the complete intersection is the common part of the edges. -/
example (tb : TieBreak) : ∃ g, completeIntersectRegions (Classical.choose exists_orient) tb (squareContour 0 0 2)
    (squareContour 2 1 2) = .ok g ∧ ∀ q, q ∈ g.pts ↔ q.x = 2 ∧ 1 ≤ q.y ∧ q.y ≤ 2 := by
  obtain ⟨g, h1, -, h3, -⟩ := completeIntersectRegions_exact (Classical.choose_spec exists_orient) tb
    (squareContour_simple (x := 0) (y := 0) (a := 2) (by norm_num)) (squareContour_simple (x := 2) (y := 1) (a := 2) (by norm_num))
  refine ⟨g, h1, fun q => ?_⟩
  rw [h3, Set.mem_inter_iff, square_region (by norm_num), square_region (by norm_num)]
  constructor
  · rintro ⟨⟨a1, a2, a3, a4⟩, b1, b2, b3, b4⟩
    exact ⟨by linarith, by linarith, by linarith⟩
  · rintro ⟨a1, a2, a3⟩
    exact ⟨⟨by linarith, by linarith, by linarith, by linarith⟩, by linarith, by linarith, by linarith, by linarith⟩

end Clipping
