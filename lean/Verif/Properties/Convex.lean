import Verif.Lemmas.Kind
import Verif.Lemmas.Region.ConvexParts
import Verif.Properties.Regions
import Verif.Properties.Detached
import Verif.Properties.Mixed

/-!
# C80: intersections of convex regions

Intersections of convex regions are convex.  So their result is never in several pieces and never has holes: it is empty or one polygon, and a complete
intersection is empty, one point, the points of one segment, or one polygon.
-/

namespace Clipping

theorem polysPts_one (p : Polygon) : polysPts [p] = p.pts := by ext q; simp [polysPts]

/-- Valid convex polygons are of the simplest kind: nothing or one polygon without holes. -/
theorem convex_result {g : Geometry} (hk : g.IsPolygonal) (V : ValidPolygons g.polygons) (hc : ConvexSet (polysPts g.polygons)) :
    g = .empty ∨ ∃ p, g = .polygon p ∧ ValidPolygon p ∧ p.holes = [] ∧ ConvexSet p.pts := by
  cases g with
  | empty => exact Or.inl rfl
  | polygon p =>
    have hp := V.valid p (by simp [Geometry.polygons])
    have hc' : ConvexSet p.pts := by
      simp only [Geometry.polygons, polysPts_one] at hc; exact hc
    exact Or.inr ⟨p, rfl, hp, hp.convex_holes hc', hc'⟩
  | multipolygon ps =>
    exfalso
    have h2 : 2 ≤ ps.length := hk
    rcases V.convex_single hc with e | ⟨p, e⟩ <;>
    · simp only [Geometry.polygons] at e
      rw [e] at h2
      simp at h2
  | _ => exact absurd hk (by simp [Geometry.IsPolygonal])

/-- **C80** `intersect_regions` of convex regions: the result is empty or one convex polygon, without holes and directed counterclockwise. -/
theorem intersectRegions_convex {o : Orient} (ok : OrientOk o) (tb : TieBreak) {a b : Contour} (va : SimpleContour a) (vb : SimpleContour b)
    (ca : ConvexSet (regionPts a.edges)) (cb : ConvexSet (regionPts b.edges)) :
    (intersectRegions o tb a b = .ok .empty ∧ closureOff (a.edges ++ b.edges) (regionPts a.edges ∩ regionPts b.edges) = ∅) ∨
    ∃ p, intersectRegions o tb a b = .ok (.polygon p) ∧ SimpleContour p.border ∧ p.holes = [] ∧ p.Oriented ∧ ConvexSet p.pts ∧
      p.pts = closureOff (a.edges ++ b.edges) (regionPts a.edges ∩ regionPts b.edges) := by
  obtain ⟨g, h1, -, h3, h4, h5⟩ := intersectRegions_exact ok tb va vb
  have hc := closureOff_convex va.noOverlap va.even vb.noOverlap vb.even ca cb
  rw [← h5] at hc ⊢
  rcases convex_result (holelessIntersection_kind o tb [a] [b] g h1) h3 hc with rfl | ⟨p, rfl, p1, p2, p3⟩
  · refine Or.inl ⟨h1, ?_⟩
    ext q; simp [polysPts, Geometry.polygons]
  · exact Or.inr ⟨p, h1, p1.border, p2, (h4 p (by simp [Geometry.polygons])).2, p3, (polysPts_one p).symm⟩

/-- **C80** `intersect_polygons` of convex polygons: the result is empty or one convex polygon without holes. -/
theorem intersectPolygons_convex {o : Orient} (ok : OrientOk o) (tb : TieBreak) {a b : Polygon} (va : ValidPolygon a) (vb : ValidPolygon b)
    (ca : ConvexSet a.pts) (cb : ConvexSet b.pts) :
    (intersectPolygons o tb a b = .ok .empty ∧ closureOff (a.edges ++ b.edges) (a.pts ∩ b.pts) = ∅) ∨
    ∃ p, intersectPolygons o tb a b = .ok (.polygon p) ∧ SimpleContour p.border ∧ p.holes = [] ∧ ConvexSet p.pts ∧
      p.pts = closureOff (a.edges ++ b.edges) (a.pts ∩ b.pts) := by
  obtain ⟨g, h1, -, h3, h5⟩ := intersectPolygons_detached ok tb va vb (detached_single (va.convex_holes ca)) (detached_single (vb.convex_holes cb))
  have hc : ConvexSet (closureOff (a.edges ++ b.edges) (a.pts ∩ b.pts)) := closureOff_convex va.noOverlap va.even vb.noOverlap vb.even ca cb
  rw [← h5] at hc ⊢
  rcases convex_result (holeyIntersection_kind o tb (polygonOperand a) (polygonOperand b) g h1) h3 hc with rfl | ⟨p, rfl, p1, p2, p3⟩
  · refine Or.inl ⟨h1, ?_⟩
    ext q; simp [polysPts, Geometry.polygons]
  · exact Or.inr ⟨p, h1, p1.border, p2, p3, (polysPts_one p).symm⟩

theorem mix_two {d l s : Geometry} (h : (Geometry.mix d l s).Canonical) :
    (d.discretePoints ≠ [] ∧ l.linearSegments ≠ []) ∨ (d.discretePoints ≠ [] ∧ s.shapedPolygons ≠ []) ∨
      (l.linearSegments ≠ [] ∧ s.shapedPolygons ≠ []) := by
  obtain ⟨h1, h2, h3, h4⟩ := h
  have k1 : d ≠ .empty → d.discretePoints ≠ [] := by
    intro hn; cases d <;> simp_all [Geometry.IsDiscrete, Geometry.discretePoints]
  have k2 : l ≠ .empty → l.linearSegments ≠ [] := by
    intro hn
    cases l with
    | multisegment t => intro e; simp only [Geometry.linearSegments] at e; subst e; simp [Geometry.IsLinear] at h2
    | _ => simp_all [Geometry.IsLinear, Geometry.linearSegments]
  have k3 : s ≠ .empty → s.shapedPolygons ≠ [] := by
    intro hn
    cases s with
    | multipolygon t => intro e; simp only [Geometry.shapedPolygons] at e; subst e; simp [Geometry.IsPolygonal] at h3
    | _ => simp_all [Geometry.IsPolygonal, Geometry.shapedPolygons]
  rcases h4 with ⟨a, b⟩ | ⟨a, b⟩ | ⟨a, b⟩
  · exact Or.inl ⟨k1 a, k2 b⟩
  · exact Or.inr (Or.inl ⟨k1 a, k3 b⟩)
  · exact Or.inr (Or.inr ⟨k2 a, k3 b⟩)

/-- A complete intersection of convex sets is empty, a point, linear with the points of one segment, or one polygon without holes. -/
theorem convex_complete {X Y : Set Point} {g : Geometry} (hX : ConvexSet X) (hY : ConvexSet Y) (hg : g.Canonical) (V : ValidPolygons g.shapedPolygons)
    (h : CompleteParts X Y g.discretePoints g.linearSegments (polysPts g.shapedPolygons)) :
    (g = .empty ∧ X ∩ Y = ∅) ∨ (∃ q, g = .multipoint [q] ∧ X ∩ Y = {q}) ∨
    (∃ s : Segment, s.Proper ∧ X ∩ Y = s.pts ∧ (g = .segment s ∨ ∃ l, g = .multisegment l ∧ 2 ≤ l.length ∧ EndsOnly l ∧ segsPts l = s.pts)) ∨
    ∃ p, g = .polygon p ∧ SimpleContour p.border ∧ p.holes = [] ∧ ConvexSet p.pts ∧ X ∩ Y = p.pts := by
  have hC := hX.inter hY
  rcases h.convex V hX hY with ⟨h1, h2, h3, h4⟩ | ⟨q, h1, h2, h3, h4⟩ | ⟨s, h0, h1, h2, h3, h4⟩ | ⟨p, h1, h2, h3, h4, h5⟩
  · left
    refine ⟨?_, h4⟩
    cases g with
    | empty => rfl
    | multipoint ps => simp only [Geometry.discretePoints] at h1; subst h1; simp [Geometry.Canonical, Geometry.IsDiscrete, Geometry.IsLinear, Geometry.IsPolygonal] at hg
    | segment t => simp [Geometry.linearSegments] at h2
    | multisegment l => simp only [Geometry.linearSegments] at h2; subst h2; simp [Geometry.Canonical, Geometry.IsDiscrete, Geometry.IsLinear, Geometry.IsPolygonal] at hg
    | polygon p => simp [Geometry.shapedPolygons] at h3
    | multipolygon ps => simp only [Geometry.shapedPolygons] at h3; subst h3; simp [Geometry.Canonical, Geometry.IsDiscrete, Geometry.IsLinear, Geometry.IsPolygonal] at hg
    | mix d l t =>
      simp only [Geometry.discretePoints, Geometry.linearSegments, Geometry.shapedPolygons] at h1 h2 h3
      rcases mix_two hg with k | k | k <;> simp_all
  · right; left
    refine ⟨q, ?_, h4⟩
    cases g with
    | multipoint ps => simp only [Geometry.discretePoints] at h1; rw [h1]
    | mix d l t =>
      simp only [Geometry.discretePoints, Geometry.linearSegments, Geometry.shapedPolygons] at h1 h2 h3
      rcases mix_two hg with k | k | k <;> simp_all
    | _ => simp [Geometry.discretePoints] at h1
  · right; right; left
    have hs : segsPts g.linearSegments = X ∩ Y := by
      ext r
      rw [← show _ ↔ r ∈ X ∩ Y from h.all r, h1, h3]
      simp [polysPts]
    cases g with
    | segment t =>
      refine ⟨t, (h.directed t (by simp [Geometry.linearSegments])).ne, ?_, Or.inl rfl⟩
      rw [← hs]
      ext r
      simp [Geometry.linearSegments, segsPts]
    | multisegment l =>
      refine ⟨s, h0, h4, Or.inr ⟨l, rfl, ?_, h.endsOnly, hs.trans h4⟩⟩
      simpa [Geometry.Canonical, Geometry.IsDiscrete, Geometry.IsLinear, Geometry.IsPolygonal] using hg
    | mix d l t =>
      simp only [Geometry.discretePoints, Geometry.linearSegments, Geometry.shapedPolygons] at h1 h2 h3
      rcases mix_two hg with k | k | k <;> simp_all
    | _ => simp [Geometry.linearSegments] at h2
  · right; right; right
    refine ⟨p, ?_, (V.valid p (by rw [h3]; simp)).border, h4, h5 ▸ hC, h5⟩
    cases g with
    | polygon t => simp only [Geometry.shapedPolygons, List.cons.injEq, and_true] at h3; rw [h3]
    | multipolygon ps => simp only [Geometry.shapedPolygons] at h3; subst h3; simp [Geometry.Canonical, Geometry.IsDiscrete, Geometry.IsLinear, Geometry.IsPolygonal] at hg
    | mix d l t =>
      simp only [Geometry.discretePoints, Geometry.linearSegments, Geometry.shapedPolygons] at h1 h2 h3
      rcases mix_two hg with k | k | k <;> simp_all
    | _ => simp [Geometry.shapedPolygons] at h3

/-- **C80** `complete_intersect_regions` of convex regions: the result is empty, one point, the points of one segment, or one convex polygon. -/
theorem completeIntersectRegions_convex {o : Orient} (ok : OrientOk o) (tb : TieBreak) {a b : Contour} (va : SimpleContour a) (vb : SimpleContour b)
    (ca : ConvexSet (regionPts a.edges)) (cb : ConvexSet (regionPts b.edges)) :
    ∃ g, completeIntersectRegions o tb a b = .ok g ∧
      ((g = .empty ∧ regionPts a.edges ∩ regionPts b.edges = ∅) ∨ (∃ q, g = .multipoint [q] ∧ regionPts a.edges ∩ regionPts b.edges = {q}) ∨
      (∃ s : Segment, s.Proper ∧ regionPts a.edges ∩ regionPts b.edges = s.pts ∧
        (g = .segment s ∨ ∃ l, g = .multisegment l ∧ 2 ≤ l.length ∧ EndsOnly l ∧ segsPts l = s.pts)) ∨
      ∃ p, g = .polygon p ∧ SimpleContour p.border ∧ p.holes = [] ∧ ConvexSet p.pts ∧ regionPts a.edges ∩ regionPts b.edges = p.pts) := by
  obtain ⟨g, h1, h2, -, h4, -, h6⟩ := completeIntersectRegions_exact ok tb va vb
  exact ⟨g, h1, convex_complete ca cb h2 h4 h6⟩

/-- **C80** `complete_intersect_polygons` of convex polygons: the result is empty, one point, the points of one segment, or one convex polygon. -/
theorem completeIntersectPolygons_convex {o : Orient} (ok : OrientOk o) (tb : TieBreak) {a b : Polygon} (va : ValidPolygon a) (vb : ValidPolygon b)
    (ca : ConvexSet a.pts) (cb : ConvexSet b.pts) :
    ∃ g, completeIntersectPolygons o tb a b = .ok g ∧
      ((g = .empty ∧ a.pts ∩ b.pts = ∅) ∨ (∃ q, g = .multipoint [q] ∧ a.pts ∩ b.pts = {q}) ∨
      (∃ s : Segment, s.Proper ∧ a.pts ∩ b.pts = s.pts ∧
        (g = .segment s ∨ ∃ l, g = .multisegment l ∧ 2 ≤ l.length ∧ EndsOnly l ∧ segsPts l = s.pts)) ∨
      ∃ p, g = .polygon p ∧ SimpleContour p.border ∧ p.holes = [] ∧ ConvexSet p.pts ∧ a.pts ∩ b.pts = p.pts) := by
  obtain ⟨g, h1, h2, -, h4, h6⟩ := completeIntersectPolygons_detached ok tb va vb (detached_single (va.convex_holes ca)) (detached_single (vb.convex_holes cb))
  exact ⟨g, h1, convex_complete ca cb h2 h4 h6⟩

theorem segment_convex (s : Segment) : ConvexSet s.pts := by
  rintro p ⟨t, t0, t1, px, py⟩ q ⟨u, u0, u1, qx, qy⟩ r ⟨v, v0, v1, rx, ry⟩
  simp only at rx ry
  refine ⟨t + v * (u - t), by nlinarith, by nlinarith, ?_, ?_⟩
  · rw [rx, px, qx]; ring
  · rw [ry, py, qy]; ring

/-- **C80** `complete_intersect_segment_with_polygon` for a convex polygon: the result is empty, one point, or the points of one segment. -/
theorem completeIntersectSegmentWithPolygon_convex {o : Orient} (ok : OrientOk o) (tb : TieBreak) {a : Segment} {b : Polygon} (ha : a.Proper)
    (vb : ValidPolygon b) (cb : ConvexSet b.pts) :
    ∃ g, completeIntersectSegmentWithPolygon o tb a b = .ok g ∧
      ((g = .empty ∧ a.pts ∩ b.pts = ∅) ∨ (∃ q, g = .multipoint [q] ∧ a.pts ∩ b.pts = {q}) ∨
      (∃ s : Segment, s.Proper ∧ a.pts ∩ b.pts = s.pts ∧
        (g = .segment s ∨ ∃ l, g = .multisegment l ∧ 2 ≤ l.length ∧ ValidSegments l ∧ segsPts l = s.pts))) := by
  obtain ⟨ps, r, h, h1, h2, -, h4, h5⟩ := mixedCompleteIntersection_result ok tb (segmentOperand_ok ha) (polygonOperand_ok vb)
  simp only [segmentOperand, segsPts_singleton, polygonOperand, polysPts_singleton] at h1
  have e : {q | q ∈ ps ∨ q ∈ segsPts r} = a.pts ∩ b.pts := by ext q; exact h1 q
  have hC : ConvexSet {q | q ∈ ps ∨ q ∈ segsPts r} := e ▸ (segment_convex a).inter cb
  refine ⟨_, h, ?_⟩
  rw [← e]
  rcases hC.linear h5.noOverlap.1 h2 h4 with ⟨rfl, rfl⟩ | ⟨q, rfl, rfl⟩ | ⟨s, h0, rfl, hL, e'⟩
  · refine Or.inl ⟨rfl, ?_⟩
    ext q; simp [segsPts_nil]
  · refine Or.inr (Or.inl ⟨q, rfl, ?_⟩)
    ext q; simp [segsPts_nil]
  · right; right
    match r, hL, h5, e' with
    | [t], _, h5, e' =>
      refine ⟨t, h5.noOverlap.1 t (by simp), ?_, Or.inl rfl⟩
      ext q; simp [segsPts_singleton]
    | t :: t' :: r, _, h5, e' =>
      refine ⟨s, h0, ?_, Or.inr ⟨_, rfl, by simp, h5, e'⟩⟩
      rw [← e']
      ext q; simp

/-! ### Examples -/

theorem square_convex {x y a : ℚ} (ha : 0 < a) : ConvexSet (regionPts (squareContour x y a).edges) := by
  have e : ∀ r, r ∈ regionPts (squareContour x y a).edges ↔ r ∈ (⟨x, x + a, y, y + a⟩ : Box).pts := fun r => square_region ha
  intro p hp q hq r hr
  rw [e] at hp hq ⊢
  exact box_convex hp hq hr

/-- Two squares which overlap. -/
example (tb : TieBreak) : ∃ (o : Orient) (p : Polygon), intersectRegions o tb (squareContour 0 0 2) (squareContour 1 1 2) = .ok (.polygon p) ∧
    SimpleContour p.border ∧ p.holes = [] ∧ ConvexSet p.pts := by
  have ok := Classical.choose_spec exists_orient
  refine ⟨Classical.choose exists_orient, ?_⟩
  rcases intersectRegions_convex ok tb (squareContour_simple (x := 0) (y := 0) (a := 2) (by norm_num))
      (squareContour_simple (x := 1) (y := 1) (a := 2) (by norm_num)) (square_convex (by norm_num)) (square_convex (by norm_num)) with
    ⟨-, h2⟩ | ⟨p, h1, h2, h3, -, h5, -⟩
  · exfalso
    have off : (⟨3 / 2, 3 / 2⟩ : Point) ∉ segsPts ((squareContour 0 0 2).edges ++ (squareContour 1 1 2).edges) := by
      rw [segsPts_append, Set.mem_union, square_segsPts (by norm_num), square_segsPts (by norm_num)]
      norm_num
    have : (⟨3 / 2, 3 / 2⟩ : Point) ∈ closureOff ((squareContour 0 0 2).edges ++ (squareContour 1 1 2).edges)
        (regionPts (squareContour 0 0 2).edges ∩ regionPts (squareContour 1 1 2).edges) := by
      intro δ hδ
      refine ⟨⟨3 / 2, 3 / 2⟩, Near.refl hδ _, off, ?_, ?_⟩ <;> rw [square_region (by norm_num)] <;> norm_num
    rw [h2] at this
    exact this
  · exact ⟨p, h1, h2, h3, h5⟩

/-- Two squares with one common corner. -/
example (tb : TieBreak) : ∃ o : Orient, completeIntersectRegions o tb (squareContour 0 0 2) (squareContour 2 2 2) = .ok (.multipoint [⟨2, 2⟩]) := by
  have ok := Classical.choose_spec exists_orient
  refine ⟨Classical.choose exists_orient, ?_⟩
  obtain ⟨g, h1, h⟩ := completeIntersectRegions_convex ok tb (squareContour_simple (x := 0) (y := 0) (a := 2) (by norm_num))
      (squareContour_simple (x := 2) (y := 2) (a := 2) (by norm_num)) (square_convex (by norm_num)) (square_convex (by norm_num))
  have e : regionPts (squareContour 0 0 2).edges ∩ regionPts (squareContour 2 2 2).edges = {(⟨2, 2⟩ : Point)} := by
    ext r
    rw [Set.mem_inter_iff, square_region (by norm_num), square_region (by norm_num), Set.mem_singleton_iff]
    constructor
    · rintro ⟨h1, h2⟩
      exact Point.ext' (by simp only; linarith [h1.2.1, h2.1]) (by simp only; linarith [h1.2.2.2, h2.2.2.1])
    · rintro rfl
      norm_num
  rw [e] at h
  rcases h with ⟨-, k⟩ | ⟨q, k1, k2⟩ | ⟨s, k0, k1, -⟩ | ⟨p, -, k1, -, -, k2⟩
  · exact absurd k (Set.singleton_ne_empty _)
  · rw [h1, k1, Set.singleton_eq_singleton_iff.1 k2]
  · exact absurd (k1 ▸ Set.finite_singleton (⟨2, 2⟩ : Point)) (overlapping_of_finite_false k0)
  · exfalso
    obtain ⟨t, ht⟩ := k1.exists_edge
    refine overlapping_of_finite_false (k1.noOverlap.1 t ht) ((Set.finite_singleton (⟨2, 2⟩ : Point)).subset ?_)
    rw [k2, polygon_pts_eq]
    intro r hr
    exact Or.inl ⟨t, by simp [Polygon.edges, ht], hr⟩

end Clipping
