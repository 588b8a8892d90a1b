import Verif.Lemmas.Region.ConvexUnion
import Verif.Properties.Convex
import Verif.Properties.UnionSingle

/-!
# C83: unions of convex polygons

The union of two convex polygons which have inner points in common, or are side by side, is one polygon without holes.
-/

namespace Clipping

/-- **C83** `unite_polygons` of convex polygons: if a common point is surrounded by points of both, the result is one polygon without holes, directed
counterclockwise, and has exactly the points of both. -/
theorem unitePolygons_convex (tb : TieBreak) {a b : Polygon} (va : ValidPolygon a) (vb : ValidPolygon b) (ca : ConvexSet a.pts) (cb : ConvexSet b.pts)
    {m : Point} (ma : m ∈ a.pts) (mb : m ∈ b.pts) {δ : ℚ} (δ0 : 0 < δ) (hm : ∀ z, Near δ m z → z ∈ a.pts ∪ b.pts) :
    ∃ p, unitePolygons tb a b = .ok (.polygon p) ∧ SimpleContour p.border ∧ p.holes = [] ∧ p.Oriented ∧ p.pts = a.pts ∪ b.pts := by
  obtain ⟨p, h1, h2, h3, h4⟩ := unitePolygons_single tb va vb (detached_single (va.convex_holes ca)) (detached_single (vb.convex_holes cb)) ma mb δ0 hm
  exact ⟨p, h1, h2.border, h2.union_holes ca cb h4 ma mb, h3, h4⟩

/-- **C83** If `intersect_polygons` of convex polygons is not empty, `unite_polygons` returns one polygon without holes with exactly the points of both. -/
theorem unitePolygons_convex_of_intersect {o : Orient} (ok : OrientOk o) (tb tb' : TieBreak) {a b : Polygon} (va : ValidPolygon a) (vb : ValidPolygon b)
    (ca : ConvexSet a.pts) (cb : ConvexSet b.pts) (h : intersectPolygons o tb a b ≠ .ok .empty) :
    ∃ p, unitePolygons tb' a b = .ok (.polygon p) ∧ SimpleContour p.border ∧ p.holes = [] ∧ p.Oriented ∧ p.pts = a.pts ∪ b.pts := by
  obtain ⟨p, h1, h2, h3, h4⟩ := unitePolygons_single_of_intersect ok tb tb' va vb (detached_single (va.convex_holes ca)) (detached_single (vb.convex_holes cb)) h
  obtain ⟨g, k1, k2⟩ := intersectPolygons_empty ok tb va vb
  obtain ⟨m, m1, -⟩ := Set.not_subset.1 fun k => h (by rw [k1, k2.2 k])
  exact ⟨p, h1, h2.border, h2.union_holes ca cb h4 m1.1 m1.2, h3, h4⟩

/-! ### Examples -/

/-- Two squares side by side, with one common edge. -/
example (tb : TieBreak) : ∃ p, unitePolygons tb ⟨squareContour 0 0 2, []⟩ ⟨squareContour 2 0 2, []⟩ = .ok (.polygon p) ∧ p.holes = [] := by
  have e : ∀ x y : ℚ, (⟨squareContour x y 2, []⟩ : Polygon).pts = regionPts (squareContour x y 2).edges := fun x y => by
    rw [polygon_pts_eq]; simp [Polygon.edges]
  obtain ⟨p, h1, -, h3, -⟩ := unitePolygons_convex tb (squareContour_simple (x := 0) (y := 0) (a := 2) (by norm_num)).validPolygon
    (squareContour_simple (x := 2) (y := 0) (a := 2) (by norm_num)).validPolygon (by rw [e]; exact square_convex (by norm_num))
    (by rw [e]; exact square_convex (by norm_num)) (m := ⟨2, 1⟩) (by rw [e, square_region (by norm_num)]; norm_num)
    (by rw [e, square_region (by norm_num)]; norm_num) (δ := 1) one_pos (by
      rintro z ⟨h1, h2⟩
      rw [abs_lt] at h1 h2
      simp only at h1 h2
      rw [e, e, Set.mem_union, square_region (by norm_num), square_region (by norm_num)]
      rcases le_total z.x 2 with h | h
      · exact Or.inl ⟨by linarith [h1.1], by linarith, by linarith [h2.1], by linarith [h2.2]⟩
      · exact Or.inr ⟨by linarith, by linarith [h1.2], by linarith [h2.1], by linarith [h2.2]⟩)
  exact ⟨p, h1, h3⟩

end Clipping
