import Verif.Lemmas.Region.UnionLinked
import Verif.Properties.Convex
import Verif.Properties.Empty
import Verif.Properties.Kinds

/-!
# C85: unions of regions with common points are in one piece

The inside of a simple contour is connected (Jordan curve theorem, `Lemmas/Region/Jordan.lean`), and so is the inside of a polygon, the contours of which
do not touch each other.  So the union of such polygons, which have inner points in common or are side by side, is one polygon.
-/

namespace Clipping

/-- The inside of a polygon the contours of which do not touch each other is connected: a path within the border can be led around the holes. -/
theorem ValidPolygon.whole {p : Polygon} (h : ValidPolygon p) (hd : Detached [p]) : Whole p.edges := by
  refine ⟨h.noOverlap, h.even, fun x y hx hy ix iy => ?_⟩
  simp only [Detached, List.flatMap_cons, List.flatMap_nil, List.append_nil, List.pairwise_cons] at hd
  have side : ∀ {z}, z ∉ segsPts p.edges → Inside p.edges z → Inside p.border.edges z ∧ z ∉ segsPts p.border.edges ∧
      ∀ c ∈ p.holes, ¬ Inside c.edges z ∧ z ∉ segsPts c.edges := by
    intro z hz iz
    rw [ValidPolygon.edges_holes] at hz
    push Not at hz
    exact ⟨(h.region_sub_border (Or.inr iz)).resolve_left hz.1, hz.1, fun c hc => ⟨fun k => h.not_in_hole hc (hz.2 c hc) k (Or.inr iz), hz.2 c hc⟩⟩
  obtain ⟨x1, x2, x3⟩ := side hx ix
  obtain ⟨y1, y2, y3⟩ := side hy iy
  have key : ∀ l : List Contour, (∀ c ∈ l, c ∈ p.holes) → l.Pairwise (fun c d => ∀ q ∈ segsPts c.edges, q ∉ segsPts d.edges) →
      Linked (p.border.edges ++ l.flatMap Contour.edges) x y := by
    intro l
    induction l with
    | nil => exact fun _ _ => by simpa using (h.border.linked_iff x2 y2).2 (iff_of_true x1 y1)
    | cons c l ih =>
      intro hl hp
      have hc := hl c List.mem_cons_self
      have l' := ih (fun d k => hl d (List.mem_cons_of_mem _ k)) (List.pairwise_cons.1 hp).2
      have := (h.holes c hc).linked_beside (D := p.border.edges ++ l.flatMap Contour.edges) (fun e he => by
          rcases List.mem_append.1 he with he | he
          · exact h.border.noOverlap.1 e he
          · obtain ⟨d, k, he⟩ := List.mem_flatMap.1 he
            exact (h.holes d (hl d (List.mem_cons_of_mem _ k))).noOverlap.1 e he) (fun q hq k => by
          rw [segsPts_append, Set.mem_union, segsPts_flatMap] at k
          rcases k with k | ⟨d, kd, k⟩
          · exact hd.1 c hc q k hq
          · exact (List.pairwise_cons.1 hp).1 d kd q hq k) (x3 c hc).2 (y3 c hc).2 l' (iff_of_false (x3 c hc).1 (y3 c hc).1)
      refine this.mono ?_
      simp only [List.flatMap_cons, segsPts_append]
      intro q
      simp only [Set.mem_union]
      tauto
  exact key p.holes (fun _ h => h) hd.2

theorem Detached.single {ps : List Polygon} (h : Detached ps) {p : Polygon} (hp : p ∈ ps) : Detached [p] := by
  refine List.Pairwise.sublist ?_ h
  simp only [List.flatMap_cons, List.flatMap_nil, List.append_nil]
  obtain ⟨l1, l2, rfl⟩ := List.append_of_mem hp
  rw [List.flatMap_append, List.flatMap_cons]
  exact (List.sublist_append_left _ _).trans (List.sublist_append_right _ _)

theorem ValidPolygon.exists_inside {p : Polygon} (h : ValidPolygon p) : ∃ z, z ∉ segsPts p.edges ∧ Inside p.edges z := by
  obtain ⟨s, hs⟩ := h.border.exists_edge
  obtain ⟨⟨z, -, -, z1, z2⟩, -⟩ := near_both (X := []) h.noOverlap h.even ⟨s, List.mem_append_left _ hs, s.start_mem⟩ (by simp) one_pos
  exact ⟨z, z1, z2⟩

/-- One polygon is of the type of a single polygon. -/
theorem single_result {g : Geometry} (hk : g.IsPolygonal) (h : ∃ p, g.polygons = [p]) : ∃ p, g = .polygon p := by
  obtain ⟨p, hp⟩ := h
  cases g with
  | polygon q => exact ⟨q, rfl⟩
  | multipolygon ps =>
    have h2 : 2 ≤ ps.length := hk
    simp only [Geometry.polygons] at hp
    rw [hp] at h2
    simp at h2
  | _ => simp [Geometry.polygons] at hp

/-- **C85** `unite_polygons` of polygons the contours of which do not touch each other: if a common point is surrounded by points of both, the result is one polygon with exactly the
points of both, directed counterclockwise. -/
theorem unitePolygons_single (tb : TieBreak) {a b : Polygon} (va : ValidPolygon a) (vb : ValidPolygon b) (da : Detached [a]) (db : Detached [b])
    {m : Point} (ma : m ∈ a.pts) (mb : m ∈ b.pts) {δ : ℚ} (δ0 : 0 < δ) (hm : ∀ z, Near δ m z → z ∈ a.pts ∪ b.pts) :
    ∃ p, unitePolygons tb a b = .ok (.polygon p) ∧ ValidPolygon p ∧ p.Oriented ∧ p.pts = a.pts ∪ b.pts := by
  obtain ⟨g, h1, -, V, h5⟩ := unitePolygons_detached tb va vb da db
  obtain ⟨g', e, -, -, R⟩ := unitePolygons_outlines tb va vb
  cases h1.symm.trans e
  have hk := holeyUnion_kind (tb := tb) (first := polygonOperand a) (second := polygonOperand b) g h1
  rw [polygon_pts_eq a, polygon_pts_eq b, closureOff_union va.noOverlap va.even vb.noOverlap vb.even] at h5
  rw [polygon_pts_eq] at ma mb
  simp only [polygon_pts_eq a, polygon_pts_eq b] at hm ⊢
  obtain ⟨z, z1, z2⟩ := va.exists_inside
  obtain ⟨p, rfl⟩ := single_result hk (V.linked_single (va.whole da) (Bs := [b.edges]) (by simpa using vb.whole db) (by rw [h5]; simp) z1 z2
    (by simpa using ⟨m, ma, mb, δ, δ0, fun z hz => by rw [h5]; exact hm z hz⟩))
  simp only [Geometry.polygons, polysPts_one] at h5
  exact ⟨p, h1, V.valid p (by simp [Geometry.polygons]),
    R.elim (fun k => by have := k.length_eq; simp [Geometry.polygons] at this) fun R => R p (by simp [Geometry.polygons]), h5⟩

/-- **C85** If `intersect_polygons` of such polygons is not empty, `unite_polygons` returns one polygon with exactly the points of both. -/
theorem unitePolygons_single_of_intersect {o : Orient} (ok : OrientOk o) (tb tb' : TieBreak) {a b : Polygon} (va : ValidPolygon a) (vb : ValidPolygon b)
    (da : Detached [a]) (db : Detached [b]) (h : intersectPolygons o tb a b ≠ .ok .empty) :
    ∃ p, unitePolygons tb' a b = .ok (.polygon p) ∧ ValidPolygon p ∧ p.Oriented ∧ p.pts = a.pts ∪ b.pts := by
  obtain ⟨g, h1, h2⟩ := intersectPolygons_empty ok tb va vb
  have hn : ¬ a.pts ∩ b.pts ⊆ segsPts (a.edges ++ b.edges) := fun k => h (by rw [h1, h2.2 k])
  obtain ⟨z, ⟨z2, z3⟩, z1⟩ := Set.not_subset.1 hn
  rw [segsPts_append] at z1
  have k := z2
  rw [polygon_pts_eq] at k
  obtain ⟨δ, δ0, hδ⟩ := (deep_region va.noOverlap va.even).2 ⟨fun k => z1 (Or.inl k), k.resolve_left fun k => z1 (Or.inl k)⟩
  refine unitePolygons_single tb' va vb da db z2 z3 δ0 fun y hy => Or.inl ?_
  rw [polygon_pts_eq]
  exact hδ y hy

/-- **C85** `unite_polygon_with_multipolygon` of polygons the contours of which do not touch each other: if each polygon of the multipolygon has a point in common with the first
operand which is surrounded by points of both operands, the result is one polygon with exactly the points of both. -/
theorem unitePolygonWithMultipolygon_single (tb : TieBreak) {a : Polygon} {b : List Polygon} (va : ValidPolygon a) (nb : b ≠ []) (vb : ValidPolygons b)
    (da : Detached [a]) (db : Detached b)
    (hm : ∀ p ∈ b, ∃ m, m ∈ a.pts ∧ m ∈ p.pts ∧ ∃ δ > 0, ∀ z, Near δ m z → z ∈ a.pts ∪ polysPts b) :
    ∃ p, unitePolygonWithMultipolygon tb a b = .ok (.polygon p) ∧ ValidPolygon p ∧ p.pts = a.pts ∪ polysPts b := by
  obtain ⟨g, h1, -, V, h5⟩ := unitePolygonWithMultipolygon_detached tb va nb vb da db
  have hk := holeyUnion_kind (tb := tb) (first := polygonOperand a) (second := multipolygonOperand b) g h1
  have eb := vb.polysPts_eq
  rw [polygon_pts_eq a, eb, closureOff_union va.noOverlap va.even vb.noOverlap vb.noOverlap_even.2, ← eb] at h5
  obtain ⟨z, z1, z2⟩ := va.exists_inside
  have e2 : polysPts b = {q | ∃ B ∈ b.map Polygon.edges, q ∈ regionPts B} := by
    ext q
    simp only [polysPts, Set.mem_ofPred_eq, List.mem_map, exists_exists_and_eq_and, polygon_pts_eq]
  obtain ⟨p, rfl⟩ := single_result hk (V.linked_single (va.whole da) (Bs := b.map Polygon.edges)
    (fun B hB => by
      obtain ⟨p, hp, rfl⟩ := List.mem_map.1 hB
      exact (vb.valid p hp).whole (db.single hp)) (by rw [h5, e2]) z1 z2
    (fun B hB => by
      obtain ⟨p, hp, rfl⟩ := List.mem_map.1 hB
      obtain ⟨m, m1, m2, δ, δ0, m3⟩ := hm p hp
      rw [polygon_pts_eq] at m1 m2
      refine ⟨m, m1, m2, δ, δ0, fun z hz => ?_⟩
      rw [h5, ← polygon_pts_eq]
      exact m3 z hz))
  simp only [Geometry.polygons, polysPts_one] at h5
  exact ⟨p, h1, V.valid p (by simp [Geometry.polygons]), by rw [h5, polygon_pts_eq a]⟩

/-! ### Examples -/

theorem off_segments {E : List Segment} {m : Point} (h : ∀ e ∈ E, cross e.start e.stop m ≠ 0 ∨ (m.x < e.start.x ∧ m.x < e.stop.x) ∨
    (e.start.x < m.x ∧ e.stop.x < m.x) ∨ (m.y < e.start.y ∧ m.y < e.stop.y) ∨ (e.start.y < m.y ∧ e.stop.y < m.y)) : m ∉ segsPts E := by
  rintro ⟨e, he, t, t0, t1, tx, ty⟩
  rcases h e he with k | k | k | k | k
  · refine k ?_
    unfold cross
    rw [tx, ty]
    ring
  · rcases le_total e.start.x e.stop.x with l | l <;> nlinarith [k.1, k.2, mul_nonneg t0 (sub_nonneg.2 l), mul_nonneg (sub_nonneg.2 t1) (sub_nonneg.2 l)]
  · rcases le_total e.start.x e.stop.x with l | l <;> nlinarith [k.1, k.2, mul_nonneg t0 (sub_nonneg.2 l), mul_nonneg (sub_nonneg.2 t1) (sub_nonneg.2 l)]
  · rcases le_total e.start.y e.stop.y with l | l <;> nlinarith [k.1, k.2, mul_nonneg t0 (sub_nonneg.2 l), mul_nonneg (sub_nonneg.2 t1) (sub_nonneg.2 l)]
  · rcases le_total e.start.y e.stop.y with l | l <;> nlinarith [k.1, k.2, mul_nonneg t0 (sub_nonneg.2 l), mul_nonneg (sub_nonneg.2 t1) (sub_nonneg.2 l)]

/-- a region in the shape of a U -/
def exCup : Contour := ⟨[⟨0, 0⟩, ⟨3, 0⟩, ⟨3, 3⟩, ⟨2, 3⟩, ⟨2, 1⟩, ⟨1, 1⟩, ⟨1, 3⟩, ⟨0, 3⟩]⟩

/-- a rectangle which covers its opening -/
def exLid : Contour := ⟨[⟨0, 2⟩, ⟨3, 2⟩, ⟨3, 4⟩, ⟨0, 4⟩]⟩

/-- Neither of them is a part of the other one, and one of them is not convex.  The union is one polygon, which has a hole. -/
example (tb : TieBreak) : ∃ p, unitePolygons tb ⟨exCup, []⟩ ⟨exLid, []⟩ = .ok (.polygon p) ∧ ValidPolygon p ∧
    p.pts = (⟨exCup, []⟩ : Polygon).pts ∪ (⟨exLid, []⟩ : Polygon).pts := by
  have vc : SimpleContour exCup := simpleCheck_spec (by decide +kernel)
  have vl : SimpleContour exLid := simpleCheck_spec (by decide +kernel)
  have ic : Inside exCup.edges ⟨1 / 2, 5 / 2⟩ := by decide +kernel
  obtain ⟨δ, δ0, hδ⟩ := (deep_region vc.noOverlap vc.even).2 ⟨off_segments (by decide +kernel), ic⟩
  obtain ⟨p, h1, h2, -, h4⟩ := unitePolygons_single tb vc.validPolygon vl.validPolygon (detached_single rfl) (detached_single rfl) (m := ⟨1 / 2, 5 / 2⟩)
    (by rw [polygon_pts_eq]; exact Or.inr (by decide +kernel)) (by rw [polygon_pts_eq]; exact Or.inr (by decide +kernel)) δ0 (fun z hz => Or.inl (by
      rw [polygon_pts_eq]
      simpa [Polygon.edges] using hδ z hz))
  exact ⟨p, h1, h2, h4⟩

example : unitePolygons TieBreak.id ⟨exCup, []⟩ ⟨exLid, []⟩ =
    .ok (.polygon ⟨⟨[⟨0, 0⟩, ⟨3, 0⟩, ⟨3, 4⟩, ⟨0, 4⟩]⟩, [⟨[⟨1, 1⟩, ⟨1, 2⟩, ⟨2, 2⟩, ⟨2, 1⟩]⟩]⟩) := by
  decide +kernel

end Clipping
