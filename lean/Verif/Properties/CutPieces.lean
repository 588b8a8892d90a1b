import Verif.Properties.UnionPieces
import Verif.Lemmas.Region.ClosedPieces

/-!
# C87: pieces of intersections and differences

Cutting does not join anything: each polygon of an intersection is in one polygon of each operand, and each polygon of a difference in one polygon of
the minuend.
-/

namespace Clipping

open Sweep

theorem closureOff_subset {A E : List Segment} (nA : NoOverlap A) (dA : ∀ q, Even (degree A q)) (hE : segsPts A ⊆ segsPts E) {X : Set Point}
    (hX : X ⊆ regionPts A) : closureOff E X ⊆ regionPts A := by
  intro q hq
  rw [mem_region_iff (X := []) nA dA (by simp)]
  intro δ δ0
  obtain ⟨z, z1, z2, z3⟩ := hq δ δ0
  have z4 : z ∉ segsPts A := fun k => z2 (hE k)
  exact ⟨z, z1, fun ⟨_, k, _⟩ => by simp at k, z4, (hX z3).resolve_left z4⟩

section

variable {o : Orient} (ok : OrientOk o) (tb : TieBreak) {a b : List Polygon} (va : ValidPolygons a) (vb : ValidPolygons b)
  (da : Detached a) (db : Detached b)

include ok va vb da db

/-- **C87** Polygons: each polygon of an intersection is in one polygon of each operand. -/
theorem intersection_within : ∃ g, Operation.intersection.call o tb a b = .ok g ∧ ValidPolygons g.polygons ∧
    ∀ p ∈ g.polygons, (∃ q ∈ a, p.pts ⊆ q.pts) ∧ ∃ q ∈ b, p.pts ⊆ q.pts := by
  obtain ⟨g, e, O⟩ := Operation.call_outlines ok tb .intersection va vb
  have vg := Operation.call_valid ok tb .intersection va vb da db e
  refine ⟨g, e, vg, fun p hp => ?_⟩
  have near : ∀ q ∈ p.pts, ∀ δ > 0, ∃ z, Near δ q z ∧ (z ∉ segsPts (a.flatMap Polygon.edges) ∧ Inside (a.flatMap Polygon.edges) z) ∧
      z ∉ segsPts (b.flatMap Polygon.edges) ∧ Inside (b.flatMap Polygon.edges) z := by
    intro q hq δ δ0
    have hq' : q ∈ regionPts (g.polygons.flatMap Polygon.edges) := by
      rw [← vg.polysPts_eq]
      exact ⟨p, hp, hq⟩
    obtain ⟨z, z1, z2, -, z4⟩ := (mem_region_iff (X := a.flatMap Polygon.edges ++ b.flatMap Polygon.edges) vg.noOverlap vg.noOverlap_even.2
      (fun s hs => (List.mem_append.1 hs).elim (va.noOverlap.1 s) (vb.noOverlap.1 s))).1 hq' δ δ0
    have k := (O.inside z z2).1 z4
    rw [segsPts_append, Set.mem_union, not_or] at z2
    simp only [Combined, Operation.holds, Bool.and_eq_true, decide_eq_true_eq] at k
    exact ⟨z, z1, ⟨z2.1, k.1⟩, z2.2, k.2⟩
  refine ⟨va.within_detached da (vg.valid p hp) fun q hq => ?_, vb.within_detached db (vg.valid p hp) fun q hq => ?_⟩
  · rw [va.polysPts_eq, mem_region_iff (X := []) va.noOverlap va.noOverlap_even.2 (by simp)]
    intro δ δ0
    obtain ⟨z, z1, z2, -⟩ := near q hq δ δ0
    exact ⟨z, z1, fun ⟨_, k, _⟩ => by simp at k, z2.1, z2.2⟩
  · rw [vb.polysPts_eq, mem_region_iff (X := []) vb.noOverlap vb.noOverlap_even.2 (by simp)]
    intro δ δ0
    obtain ⟨z, z1, -, z2⟩ := near q hq δ δ0
    exact ⟨z, z1, fun ⟨_, k, _⟩ => by simp at k, z2.1, z2.2⟩

/-- **C87** Polygons: each polygon of a difference is in one polygon of the minuend. -/
theorem difference_within : ∃ g, Operation.difference.call o tb a b = .ok g ∧ ValidPolygons g.polygons ∧
    ∀ p ∈ g.polygons, ∃ q ∈ a, p.pts ⊆ q.pts := by
  obtain ⟨g, e, O⟩ := Operation.call_outlines ok tb .difference va vb
  have vg := Operation.call_valid ok tb .difference va vb da db e
  refine ⟨g, e, vg, fun p hp => va.within_detached da (vg.valid p hp) fun q hq => ?_⟩
  rw [va.polysPts_eq, mem_region_iff (X := []) va.noOverlap va.noOverlap_even.2 (by simp)]
  intro δ δ0
  have hq' : q ∈ regionPts (g.polygons.flatMap Polygon.edges) := by
    rw [← vg.polysPts_eq]
    exact ⟨p, hp, hq⟩
  obtain ⟨z, z1, z2, -, z4⟩ := (mem_region_iff (X := a.flatMap Polygon.edges ++ b.flatMap Polygon.edges) vg.noOverlap vg.noOverlap_even.2
    (fun s hs => (List.mem_append.1 hs).elim (va.noOverlap.1 s) (vb.noOverlap.1 s))).1 hq' δ δ0
  have k := (O.inside z z2).1 z4
  rw [segsPts_append, Set.mem_union, not_or] at z2
  simp only [Combined, Operation.holds, Bool.and_eq_true, decide_eq_true_eq] at k
  exact ⟨z, z1, fun ⟨_, k, _⟩ => by simp at k, z2.1, k.1⟩

end

/-- A region of a part of regions is in one of them. -/
theorem ValidRegions.within_one {a : List Contour} (va : ValidRegions a) {p : Polygon} (vp : ValidPolygon p) (hp : p.holes = [])
    (s : p.pts ⊆ regionsPts a) : ∃ c ∈ a, p.pts ⊆ regionPts c.edges := by
  obtain ⟨z, z1, z2⟩ := vp.exists_inside
  rw [polygon_pts_eq] at s ⊢
  obtain ⟨q, hq, k⟩ := va.polygons.piece_within (vp.whole (detached_single hp)) (by rwa [polysPts_regions]) z1 z2
  obtain ⟨c, hc, rfl⟩ := List.mem_map.1 hq
  exact ⟨c, hc, by rwa [bare_pts] at k⟩

theorem ValidRegions.region {c : List Contour} (h : ValidRegions c) : regionsPts c = regionPts (c.flatMap Contour.edges) ∧
    ∀ q, Even (degree (c.flatMap Contour.edges) q) := by
  have e : (regionPolygons c).flatMap Polygon.edges = c.flatMap Contour.edges := by
    simp [regionPolygons, List.flatMap_map, Polygon.edges]
  rw [← e]
  exact ⟨by rw [← polysPts_regions, h.polygons.polysPts_eq], h.polygons.noOverlap_even.2⟩

variable {o : Orient} (ok : OrientOk o) (tb : TieBreak)

include ok

/-- **C87** `intersect_region_with_multiregion`: each region of the result is in the region and in one region of the multiregion. -/
theorem intersectRegionWithMultiregion_within {a : Contour} {b : List Contour} (va : SimpleContour a) (nb : b ≠ []) (vb : ValidRegions b) :
    ∃ g, intersectRegionWithMultiregion o tb a b = .ok g ∧ ValidPolygons g.polygons ∧
      ∀ p ∈ g.polygons, p.holes = [] ∧ p.pts ⊆ regionPts a.edges ∧ ∃ d ∈ b, p.pts ⊆ regionPts d.edges := by
  obtain ⟨g, e, -, vg, hg, h⟩ := intersectRegionWithMultiregion_exact ok tb va nb vb
  refine ⟨g, e, vg, fun p hp => ⟨(hg p hp).1, ?_, vb.within_one (vg.valid p hp) (hg p hp).1 ?_⟩⟩
  · refine Set.Subset.trans (show p.pts ⊆ polysPts g.polygons from fun q hq => ⟨p, hp, hq⟩) ?_
    rw [h]
    exact closureOff_subset va.noOverlap va.even (by rw [segsPts_append]; exact Set.subset_union_left) Set.inter_subset_left
  · refine Set.Subset.trans (show p.pts ⊆ polysPts g.polygons from fun q hq => ⟨p, hp, hq⟩) ?_
    rw [h, vb.region.1]
    exact closureOff_subset vb.noOverlap vb.region.2 (by rw [segsPts_append]; exact Set.subset_union_right) Set.inter_subset_right

/-- **C87** `intersect_multiregions`: each region of the result is in one region of each operand. -/
theorem intersectMultiregions_within {a b : List Contour} (na : a ≠ []) (va : ValidRegions a) (nb : b ≠ []) (vb : ValidRegions b) :
    ∃ g, intersectMultiregions o tb a b = .ok g ∧ ValidPolygons g.polygons ∧
      ∀ p ∈ g.polygons, p.holes = [] ∧ (∃ c ∈ a, p.pts ⊆ regionPts c.edges) ∧ ∃ d ∈ b, p.pts ⊆ regionPts d.edges := by
  obtain ⟨g, e, -, vg, hg, h⟩ := intersectMultiregions_exact ok tb na va nb vb
  refine ⟨g, e, vg, fun p hp => ⟨(hg p hp).1, va.within_one (vg.valid p hp) (hg p hp).1 ?_, vb.within_one (vg.valid p hp) (hg p hp).1 ?_⟩⟩
  · refine Set.Subset.trans (show p.pts ⊆ polysPts g.polygons from fun q hq => ⟨p, hp, hq⟩) ?_
    rw [h, va.region.1]
    exact closureOff_subset va.noOverlap va.region.2 (by rw [segsPts_append]; exact Set.subset_union_left) Set.inter_subset_left
  · refine Set.Subset.trans (show p.pts ⊆ polysPts g.polygons from fun q hq => ⟨p, hp, hq⟩) ?_
    rw [h, vb.region.1]
    exact closureOff_subset vb.noOverlap vb.region.2 (by rw [segsPts_append]; exact Set.subset_union_right) Set.inter_subset_right

/-! ### Examples -/

omit ok in
theorem exSquares_valid : ValidRegions [squareContour 0 0 2, squareContour 4 0 2] := by
  have s : ∀ x, SimpleContour (squareContour x 0 2) := fun x => squareContour_simple (by norm_num)
  have off : ∀ q ∈ regionPts (squareContour 0 0 2).edges, q ∉ regionPts (squareContour 4 0 2).edges := by
    intro q hq hq'
    rw [square_region (by norm_num)] at hq hq'
    linarith [hq.2.1, hq'.1]
  refine ⟨?_, ?_, ?_⟩
  · intro c hc
    simp only [List.mem_cons, List.not_mem_nil, or_false] at hc
    rcases hc with rfl | rfl <;> exact s _
  · simpa using noOverlap_of_disjoint (s 0).noOverlap (s 4).noOverlap fun q hq hq' => off q (Or.inl hq) (Or.inl hq')
  · simp only [List.pairwise_cons, List.mem_singleton, forall_eq, List.not_mem_nil, IsEmpty.forall_iff, implies_true, List.Pairwise.nil, and_true]
    exact ⟨fun q hq _ k => off q hq (Or.inr k), fun q hq _ k => off q (Or.inr k) hq⟩

/-- A square which covers parts of two others: each part is in one of these. -/
example : ∃ g, intersectRegionWithMultiregion o tb (squareContour 1 1 4) [squareContour 0 0 2, squareContour 4 0 2] = .ok g ∧ ValidPolygons g.polygons ∧
    ∀ p ∈ g.polygons, p.holes = [] ∧ p.pts ⊆ regionPts (squareContour 1 1 4).edges ∧
      ∃ d ∈ [squareContour 0 0 2, squareContour 4 0 2], p.pts ⊆ regionPts d.edges :=
  intersectRegionWithMultiregion_within ok tb (squareContour_simple (by norm_num)) (by simp) exSquares_valid

omit ok in
example : intersectRegionWithMultiregion noOrient TieBreak.id (squareContour 1 1 4) [squareContour 0 0 2, squareContour 4 0 2] =
    .ok (.multipolygon [⟨⟨[⟨1, 1⟩, ⟨2, 1⟩, ⟨2, 2⟩, ⟨1, 2⟩]⟩, []⟩, ⟨⟨[⟨4, 1⟩, ⟨5, 1⟩, ⟨5, 2⟩, ⟨4, 2⟩]⟩, []⟩]) := by
  decide +kernel

/-- Polygons with a hole, cut by the U of C85. -/
example : ∃ g, Operation.difference.call o tb exStandard [⟨exCup, []⟩] = .ok g ∧ ValidPolygons g.polygons ∧
    ∀ p ∈ g.polygons, ∃ q ∈ exStandard, p.pts ⊆ q.pts :=
  difference_within ok tb exStandard_valid exCup_separate.valid exStandard_detached exCup_separate.detached

omit ok in
/-- The contours of a polygon of the result touch each other. -/
example : subtractPolygons noOrient TieBreak.id ⟨squareContour 0 0 4, []⟩ ⟨⟨[⟨0, 2⟩, ⟨2, 1⟩, ⟨2, 3⟩]⟩, []⟩ =
    .ok (.polygon ⟨⟨[⟨0, 0⟩, ⟨4, 0⟩, ⟨4, 4⟩, ⟨0, 4⟩]⟩, [⟨[⟨0, 2⟩, ⟨2, 3⟩, ⟨2, 1⟩]⟩]⟩) := by
  decide +kernel

end Clipping
