import Verif.Lemmas.Region.ConvexCount
import Verif.Properties.Convex
import Verif.Properties.PolygonsHole
import Verif.Properties.Size

/-!
# C82: numbers of vertices of intersections of convex regions

Results have no superfluous vertices, and each edge of the result runs along an edge of an operand.  For convex operands different edges of the result
run along different ones, so the result has no more vertices than both operands together.
-/

namespace Clipping

theorem Contour.Normal.cornered {c : Contour} (h : c.Normal) : c.Cornered := h.corners

theorem polygon_edges_bare {p : Polygon} (h : p.holes = []) : p.edges = p.border.edges := by simp [Polygon.edges, h]

theorem vertexCount_bare {p : Polygon} (h : p.holes = []) : vertexCount [p] = p.border.vertices.length := by
  rw [vertexCount_eq]
  simp [polygon_edges_bare h, edges_length]

/-- The boundary of the common points of two regions is within their boundaries. -/
theorem ValidPolygon.inter_within {p : Polygon} {A B : List Segment} (hp : ValidPolygon p) (nA : NoOverlap A) (dA : ∀ q, Even (degree A q))
    (nB : NoOverlap B) (dB : ∀ q, Even (degree B q)) (e : regionPts A ∩ regionPts B = p.pts) : segsPts p.edges ⊆ segsPts (A ++ B) := by
  intro q hq
  by_contra hn
  rw [segsPts_append, Set.mem_union, not_or] at hn
  have hm : q ∈ regionPts A ∩ regionPts B := by
    rw [e, polygon_pts_eq]
    exact Or.inl hq
  have h1 := (deep_region nA dA).2 ⟨hn.1, hm.1.resolve_left hn.1⟩
  have h2 := (deep_region nB dB).2 ⟨hn.2, hm.2.resolve_left hn.2⟩
  have h := h1.inter h2
  rw [e, polygon_pts_eq] at h
  exact ((deep_region hp.noOverlap hp.even).1 h).1 hq

/-- A convex polygon in normal form has no more vertices than there are segments which it runs along. -/
theorem convex_vertexCount {p : Polygon} (hp : SimpleContour p.border) (hh : p.holes = []) (hc : ConvexSet p.pts) (hn : p.border.Normal) {L : List Segment}
    (hw : segsPts p.edges ⊆ segsPts L) : vertexCount [p] ≤ L.length := by
  rw [polygon_edges_bare hh] at hw
  rw [polygon_pts_eq, polygon_edges_bare hh] at hc
  rw [vertexCount_bare hh]
  exact hp.convex_count hn.cornered hc hw

/-- **C82** `intersect_regions` of convex regions: the result has no more vertices than both operands together. -/
theorem intersectRegions_convexCount {o : Orient} (ok : OrientOk o) (tb : TieBreak) {a b : Contour} (va : SimpleContour a) (vb : SimpleContour b)
    (ca : ConvexSet (regionPts a.edges)) (cb : ConvexSet (regionPts b.edges)) :
    ∃ g, intersectRegions o tb a b = .ok g ∧ vertexCount g.polygons ≤ a.vertices.length + b.vertices.length := by
  rcases intersectRegions_convex ok tb va vb ca cb with ⟨h1, -⟩ | ⟨p, h1, h2, h3, -, h5, -⟩
  · exact ⟨_, h1, by simp [vertexCount, Geometry.polygons]⟩
  · refine ⟨_, h1, ?_⟩
    obtain ⟨g, e, N⟩ := intersectRegions_normal ok tb va vb
    cases h1.symm.trans e
    obtain ⟨cs, e', O, -⟩ := holelessIntersection_outlines ok (validRegions_single va).polygons (validRegions_single vb).polygons (by simp) (by simp) tb
    rw [Selected.RegionsInv.flatMap_edges, Selected.RegionsInv.flatMap_edges] at O
    have hw := O.within
    have e2 : Geometry.polygon p = unpackRegions cs := by
      have := h1.symm.trans e'
      injection this
    rw [unpackRegions_eq] at e2
    have e3 := congrArg Geometry.polygons e2
    rw [unpackPolygons_polygons] at e3
    rw [← e3] at hw
    simp only [Geometry.polygons, List.flatMap_cons, List.flatMap_nil, List.append_nil] at hw
    have := convex_vertexCount h2 h3 h5 (N.border p (by simp [Geometry.polygons])) hw
    rwa [List.length_append, edges_length, edges_length] at this

/-- **C82** `complete_intersect_regions` of convex regions: the polygon in the result has no more vertices than both operands together. -/
theorem completeIntersectRegions_convexCount {o : Orient} (ok : OrientOk o) (tb : TieBreak) {a b : Contour} (va : SimpleContour a) (vb : SimpleContour b)
    (ca : ConvexSet (regionPts a.edges)) (cb : ConvexSet (regionPts b.edges)) :
    ∃ g, completeIntersectRegions o tb a b = .ok g ∧ vertexCount g.shapedPolygons ≤ a.vertices.length + b.vertices.length := by
  obtain ⟨g, h1, h⟩ := completeIntersectRegions_convex ok tb va vb ca cb
  refine ⟨g, h1, ?_⟩
  obtain ⟨g', e, V, -⟩ : ∃ g', completeIntersectRegions o tb a b = .ok g' ∧ ValidPolygons g'.shapedPolygons ∧ True := by
    obtain ⟨g', k1, -, -, k4, -⟩ := completeIntersectRegions_exact ok tb va vb
    exact ⟨g', k1, k4, trivial⟩
  cases h1.symm.trans e
  obtain ⟨g', e, N⟩ := completeIntersectRegions_normal ok tb va vb
  cases h1.symm.trans e
  rcases h with ⟨rfl, -⟩ | ⟨q, rfl, -⟩ | ⟨s, -, -, rfl | ⟨l, rfl, -⟩⟩ | ⟨p, rfl, k2, k3, k4, k5⟩ <;> try simp [vertexCount, Geometry.shapedPolygons]; done
  have hw := (V.valid p (by simp [Geometry.shapedPolygons])).inter_within va.noOverlap va.even vb.noOverlap vb.even k5
  have := convex_vertexCount k2 k3 k4 (N.border p (by simp [Geometry.shapedPolygons])) hw
  rwa [List.length_append, edges_length, edges_length] at this

/-- **C82** `intersect_polygons` of convex polygons: the result has no more vertices than both operands together. -/
theorem intersectPolygons_convexCount {o : Orient} (ok : OrientOk o) (tb : TieBreak) {a b : Polygon} (va : ValidPolygon a) (vb : ValidPolygon b)
    (ca : ConvexSet a.pts) (cb : ConvexSet b.pts) :
    ∃ g, intersectPolygons o tb a b = .ok g ∧ vertexCount g.polygons ≤ a.border.vertices.length + b.border.vertices.length := by
  rcases intersectPolygons_convex ok tb va vb ca cb with ⟨h1, -⟩ | ⟨p, h1, h2, h3, h5, -⟩
  · exact ⟨_, h1, by simp [vertexCount, Geometry.polygons]⟩
  · refine ⟨_, h1, ?_⟩
    obtain ⟨g, e, N⟩ := intersectPolygons_normal ok tb va vb
    cases h1.symm.trans e
    obtain ⟨g, e, -, O, -⟩ := intersectPolygons_outlines ok tb va vb
    cases h1.symm.trans e
    have hw := O.within
    simp only [Geometry.polygons, List.flatMap_cons, List.flatMap_nil, List.append_nil] at hw
    have := convex_vertexCount h2 h3 h5 (N.border p (by simp [Geometry.polygons])) hw
    rwa [List.length_append, polygon_edges_bare (va.convex_holes ca), polygon_edges_bare (vb.convex_holes cb), edges_length, edges_length] at this

/-- **C82** `complete_intersect_polygons` of convex polygons: the polygon in the result has no more vertices than both operands together. -/
theorem completeIntersectPolygons_convexCount {o : Orient} (ok : OrientOk o) (tb : TieBreak) {a b : Polygon} (va : ValidPolygon a) (vb : ValidPolygon b)
    (ca : ConvexSet a.pts) (cb : ConvexSet b.pts) :
    ∃ g, completeIntersectPolygons o tb a b = .ok g ∧ vertexCount g.shapedPolygons ≤ a.border.vertices.length + b.border.vertices.length := by
  obtain ⟨g, h1, h⟩ := completeIntersectPolygons_convex ok tb va vb ca cb
  refine ⟨g, h1, ?_⟩
  obtain ⟨g', e, -, -, V, -⟩ := completeIntersectPolygons_detached ok tb va vb (detached_single (va.convex_holes ca)) (detached_single (vb.convex_holes cb))
  cases h1.symm.trans e
  obtain ⟨g', e, N⟩ := completeIntersectPolygons_normal ok tb va vb
  cases h1.symm.trans e
  rcases h with ⟨rfl, -⟩ | ⟨q, rfl, -⟩ | ⟨s, -, -, rfl | ⟨l, rfl, -⟩⟩ | ⟨p, rfl, k2, k3, k4, k5⟩ <;> try simp [vertexCount, Geometry.shapedPolygons]; done
  have hw := (V.valid p (by simp [Geometry.shapedPolygons])).inter_within va.noOverlap va.even vb.noOverlap vb.even (by simpa only [polygon_pts_eq] using k5)
  have := convex_vertexCount k2 k3 k4 (N.border p (by simp [Geometry.shapedPolygons])) hw
  rwa [List.length_append, polygon_edges_bare (va.convex_holes ca), polygon_edges_bare (vb.convex_holes cb), edges_length, edges_length] at this

/-! ### Examples -/

/-- Two squares which overlap. -/
example (tb : TieBreak) : ∃ (o : Orient) (g : Geometry), intersectRegions o tb (squareContour 0 0 2) (squareContour 1 1 2) = .ok g ∧ vertexCount g.polygons ≤ 4 + 4 := by
  have ok := Classical.choose_spec exists_orient
  exact ⟨Classical.choose exists_orient, intersectRegions_convexCount ok tb (squareContour_simple (x := 0) (y := 0) (a := 2) (by norm_num))
    (squareContour_simple (x := 1) (y := 1) (a := 2) (by norm_num)) (square_convex (by norm_num)) (square_convex (by norm_num))⟩

/-- The bound is reached: two triangles which form a star have a hexagon in common. -/
example : intersectRegions noOrient TieBreak.id ⟨[⟨0, 0⟩, ⟨6, 0⟩, ⟨3, 6⟩]⟩ ⟨[⟨1, 4⟩, ⟨4, -2⟩, ⟨7, 4⟩]⟩ =
    .ok (.polygon ⟨⟨[⟨3/2, 3⟩, ⟨3, 0⟩, ⟨5, 0⟩, ⟨11/2, 1⟩, ⟨4, 4⟩, ⟨2, 4⟩]⟩, []⟩) := by
  decide +kernel

end Clipping
