import Verif.Spec.Affine
import Verif.Lemmas.Shaped.Filling
import Verif.Lemmas.Shaped.Owner

/-!
# Affine images of regions
-/

namespace Clipping

open Sweep

namespace Affine

variable (T : Affine)

/-- the inverse map -/
def inv : Affine where
  a := T.d / (T.a * T.d - T.b * T.c)
  b := -T.b / (T.a * T.d - T.b * T.c)
  c := -T.c / (T.a * T.d - T.b * T.c)
  d := T.a / (T.a * T.d - T.b * T.c)
  e := (T.b * T.f - T.d * T.e) / (T.a * T.d - T.b * T.c)
  f := (T.c * T.e - T.a * T.f) / (T.a * T.d - T.b * T.c)
  det := by
    have h := T.det
    set D := T.a * T.d - T.b * T.c with hD
    have : T.d / D * (T.a / D) - -T.b / D * (-T.c / D) = 1 / D := by
      rw [div_mul_div_comm, div_mul_div_comm, ← sub_div, div_eq_div_iff (mul_ne_zero h h) h]
      rw [hD]; ring
    rw [this]
    exact one_div_ne_zero h

theorem inv_point (p : Point) : T.inv.point (T.point p) = p := by
  have h := T.det
  cases p with | mk x y =>
  simp only [inv, point, Point.mk.injEq]
  set D := T.a * T.d - T.b * T.c with hD
  have k : D / D = 1 := div_self h
  constructor
  · have : T.d / D * (T.a * x + T.b * y + T.e) + -T.b / D * (T.c * x + T.d * y + T.f) + (T.b * T.f - T.d * T.e) / D = x * (D / D) := by
      simp only [div_eq_mul_inv]; rw [hD]; ring
    rw [this, k, mul_one]
  · have : -T.c / D * (T.a * x + T.b * y + T.e) + T.a / D * (T.c * x + T.d * y + T.f) + (T.c * T.e - T.a * T.f) / D = y * (D / D) := by
      simp only [div_eq_mul_inv]; rw [hD]; ring
    rw [this, k, mul_one]

theorem point_inv (p : Point) : T.point (T.inv.point p) = p := by
  have h := T.det
  cases p with | mk x y =>
  simp only [inv, point, Point.mk.injEq]
  set D := T.a * T.d - T.b * T.c with hD
  have k : D / D = 1 := div_self h
  constructor
  · have : T.a * (T.d / D * x + -T.b / D * y + (T.b * T.f - T.d * T.e) / D) + T.b * (-T.c / D * x + T.a / D * y + (T.c * T.e - T.a * T.f) / D) +
        T.e = (x - T.e) * (D / D) + T.e := by
      simp only [div_eq_mul_inv]; rw [hD]; ring
    rw [this, k]; ring
  · have : T.c * (T.d / D * x + -T.b / D * y + (T.b * T.f - T.d * T.e) / D) + T.d * (-T.c / D * x + T.a / D * y + (T.c * T.e - T.a * T.f) / D) +
        T.f = (y - T.f) * (D / D) + T.f := by
      simp only [div_eq_mul_inv]; rw [hD]; ring
    rw [this, k]; ring

theorem injective : Function.Injective T.point := Function.LeftInverse.injective T.inv_point

theorem surjective : Function.Surjective T.point := Function.RightInverse.surjective T.point_inv

theorem mem_image {X : Set Point} {p : Point} : T.point p ∈ T.point '' X ↔ p ∈ X := T.injective.mem_set_image

theorem segment_pts (s : Segment) : (T.segment s).pts = T.point '' s.pts := by
  ext q
  constructor
  · rintro ⟨t, t0, t1, hx, hy⟩
    refine ⟨⟨s.start.x + t * (s.stop.x - s.start.x), s.start.y + t * (s.stop.y - s.start.y)⟩, ⟨t, t0, t1, rfl, rfl⟩, ?_⟩
    cases q
    simp only [segment, point] at hx hy
    simp only [point, Point.mk.injEq]
    rw [hx, hy]
    exact ⟨by ring, by ring⟩
  · rintro ⟨p, ⟨t, t0, t1, hx, hy⟩, rfl⟩
    refine ⟨t, t0, t1, ?_, ?_⟩ <;> simp only [segment, point] <;> rw [hx, hy] <;> ring

theorem segsPts_map (E : List Segment) : segsPts (E.map T.segment) = T.point '' segsPts E := by
  ext q
  constructor
  · rintro ⟨s, hs, hq⟩
    obtain ⟨e, he, rfl⟩ := List.mem_map.1 hs
    rw [segment_pts] at hq
    obtain ⟨p, hp, rfl⟩ := hq
    exact ⟨p, ⟨e, he, hp⟩, rfl⟩
  · rintro ⟨p, ⟨e, he, hp⟩, rfl⟩
    exact ⟨T.segment e, List.mem_map_of_mem he, by rw [segment_pts]; exact ⟨p, hp, rfl⟩⟩

theorem contour_edges (c : Contour) : (T.contour c).edges = c.edges.map T.segment := by
  unfold contour Contour.edges
  rcases c with ⟨_ | ⟨v, vs⟩⟩
  · rfl
  · simp only [List.map_cons]
    rw [List.map_zipWith, ← List.map_cons, show vs.map T.point ++ [T.point v] = (vs ++ [v]).map T.point by simp, List.zipWith_map]
    rfl

theorem polygon_edges (p : Polygon) : (T.polygon p).edges = p.edges.map T.segment := by
  unfold polygon Polygon.edges
  rw [List.map_append, List.map_flatMap, List.flatMap_map, contour_edges]
  simp only [contour_edges]

theorem polygons_edges (ps : List Polygon) : (ps.map T.polygon).flatMap Polygon.edges = (ps.flatMap Polygon.edges).map T.segment := by
  rw [List.map_flatMap, List.flatMap_map]
  simp only [polygon_edges]

theorem isEnd {s : Segment} {q : Point} : (T.segment s).IsEnd (T.point q) ↔ s.IsEnd q := by
  unfold Segment.IsEnd segment
  simp only [T.injective.eq_iff]

theorem proper {s : Segment} : (T.segment s).Proper ↔ s.Proper := by
  unfold Segment.Proper segment
  simp only [ne_eq, T.injective.eq_iff]

theorem overlapping {s t : Segment} : Overlapping (T.segment s) (T.segment t) ↔ Overlapping s t := by
  unfold Overlapping
  constructor
  · rintro ⟨p, q, hne, h1, h2, h3, h4⟩
    obtain ⟨p, rfl⟩ := T.surjective p
    obtain ⟨q, rfl⟩ := T.surjective q
    simp only [segment_pts, mem_image] at h1 h2 h3 h4
    exact ⟨p, q, fun h => hne (by rw [h]), h1, h2, h3, h4⟩
  · rintro ⟨p, q, hne, h1, h2, h3, h4⟩
    refine ⟨T.point p, T.point q, T.injective.ne hne, ?_⟩
    simp only [segment_pts, mem_image]
    exact ⟨h1, h2, h3, h4⟩

theorem noOverlap {E : List Segment} (h : NoOverlap E) : NoOverlap (E.map T.segment) := by
  refine ⟨fun s hs => ?_, ?_⟩
  · obtain ⟨e, he, rfl⟩ := List.mem_map.1 hs
    exact T.proper.2 (h.1 e he)
  · rw [List.pairwise_map]
    exact h.2.imp fun hn g => hn (T.overlapping.1 g)

theorem simple {c : Contour} (h : SimpleContour c) : SimpleContour (T.contour c) where
  three := by simpa [contour] using h.three
  nodup := h.nodup.map T.injective
  ends := by
    rw [contour_edges]
    unfold EndsOnly
    rw [List.pairwise_map]
    refine List.Pairwise.imp ?_ h.ends
    intro s t g q h1 h2
    obtain ⟨q, rfl⟩ := T.surjective q
    rw [segment_pts, mem_image] at h1 h2
    rw [isEnd, isEnd]
    exact g q h1 h2

theorem free {E : List Segment} {a b : Point} (h : Free E a b) : Free (E.map T.segment) (T.point a) (T.point b) := by
  intro r hr hE
  change r ∈ (T.segment ⟨a, b⟩).pts at hr
  rw [segment_pts] at hr
  obtain ⟨q, hq, rfl⟩ := hr
  rw [segsPts_map, mem_image] at hE
  exact h q hq hE

theorem linked {E : List Segment} {a b : Point} (h : Linked E a b) : Linked (E.map T.segment) (T.point a) (T.point b) := by
  induction h with
  | refl => exact Relation.ReflTransGen.refl
  | tail _ h ih => exact ih.tail (T.free h)

end Affine

theorem convex_gt {y a b t : ℚ} (t0 : 0 ≤ t) (t1 : t ≤ 1) (ha : a < y) (hb : b < y) : a + t * (b - a) < y := by
  have h2 : 0 ≤ t * (y - b) := mul_nonneg t0 (by linarith)
  rcases t1.lt_or_eq with h | rfl
  · have h1 : 0 < (1 - t) * (y - a) := mul_pos (by linarith) (by linarith)
    linarith
  · linarith

theorem far_right {E : List Segment} {y : Point} (h : ∀ e ∈ E, e.start.x < y.x ∧ e.stop.x < y.x) : y ∉ segsPts E ∧ ¬ Inside E y := by
  constructor
  · rintro ⟨e, he, t, t0, t1, hx, -⟩
    obtain ⟨h1, h2⟩ := h e he
    exact (convex_gt t0 t1 h1 h2).ne hx.symm
  · unfold Inside
    rw [List.countP_eq_zero.2]
    · simp
    · intro e he
      simp only [decide_eq_true_eq]
      rintro ⟨-, h1, -⟩
      obtain ⟨g1, g2⟩ := h e he
      rcases e.hi_mem with ⟨t, t0, t1, hx, -⟩
      linarith [convex_gt t0 t1 g1 g2]

/-- Points are not inside if their abscissa is large. -/
theorem far_bound (E : List Segment) : ∃ M : ℚ, 0 ≤ M ∧ ∀ y : Point, M < |y.x| → y ∉ segsPts E ∧ ¬ Inside E y := by
  have : ∃ M : ℚ, 0 ≤ M ∧ ∀ e ∈ E, |e.start.x| ≤ M ∧ |e.stop.x| ≤ M := by
    induction E with
    | nil => exact ⟨0, le_rfl, by simp⟩
    | cons e E ih =>
      obtain ⟨M, M0, h⟩ := ih
      refine ⟨max M (max |e.start.x| |e.stop.x|), le_max_of_le_left M0, ?_⟩
      intro g hg
      rcases List.mem_cons.1 hg with rfl | hg
      · exact ⟨le_max_of_le_right (le_max_left _ _), le_max_of_le_right (le_max_right _ _)⟩
      · exact ⟨le_max_of_le_left (h g hg).1, le_max_of_le_left (h g hg).2⟩
  obtain ⟨M, M0, h⟩ := this
  refine ⟨M, M0, fun y hy => ?_⟩
  rcases lt_abs.1 hy with g | g
  · refine far_right fun e he => ?_
    exact ⟨(le_abs_self _).trans_lt ((h e he).1.trans_lt g), (le_abs_self _).trans_lt ((h e he).2.trans_lt g)⟩
  · refine far_off fun e he => ?_
    have h1 := (abs_le.1 (h e he).1).1
    have h2 := (abs_le.1 (h e he).2).1
    exact ⟨by linarith, by linarith⟩

namespace Affine

variable (T : Affine)

/-- a point far away, the image of which is far away -/
theorem exists_far_both (M : ℚ) (M0 : 0 ≤ M) : ∃ y : Point, M < |y.x| ∧ M < |(T.point y).x| := by
  -- the image of the axis or of a slanted line is not vertical
  have main : ∀ k : ℚ, T.a + T.b * k ≠ 0 → ∃ y : Point, M < |y.x| ∧ M < |(T.point y).x| := by
    intro k hk
    set m := T.a + T.b * k
    have mp : 0 < |m| := abs_pos.2 hk
    set s := M + 1 + (M + 1 + |T.e|) / |m| with hs
    have d0 : 0 ≤ (M + 1 + |T.e|) / |m| := div_nonneg (by have := abs_nonneg T.e; linarith) mp.le
    have s0 : 0 < s := by linarith
    refine ⟨⟨s, k * s⟩, ?_, ?_⟩
    · show M < |s|
      rw [abs_of_pos s0]; linarith
    · have e : (T.point ⟨s, k * s⟩).x = m * s + T.e := by simp only [point, m]; ring
      rw [e]
      have h1 : |m * s| ≤ |m * s + T.e| + |T.e| := by
        have := abs_sub (m * s + T.e) T.e
        rwa [add_sub_cancel_right] at this
      have h2 : |m * s| = |m| * s := by rw [abs_mul, abs_of_pos s0]
      have h3 : |m| * s = |m| * (M + 1) + (M + 1 + |T.e|) := by
        have := div_mul_cancel₀ (M + 1 + |T.e|) mp.ne'
        rw [hs, mul_add]
        linear_combination this
      have h4 : 0 ≤ |m| * (M + 1) := mul_nonneg mp.le (by linarith)
      linarith
  by_cases ha : T.a = 0
  · refine main 1 ?_
    rw [ha, zero_add, mul_one]
    intro hb
    exact T.det (by rw [ha, hb]; ring)
  · exact main 0 (by simpa using ha)

/-- The image of a point is inside of the image of a contour exactly if the point is inside of the contour. -/
theorem inside_contour {c : Contour} (h : SimpleContour c) {z : Point} (hz : z ∉ segsPts c.edges) :
    Inside (T.contour c).edges (T.point z) ↔ Inside c.edges z := by
  have h' := T.simple h
  have hz' : T.point z ∉ segsPts (T.contour c).edges := by rwa [contour_edges, segsPts_map, mem_image]
  obtain ⟨M, M0, hM⟩ := far_bound c.edges
  obtain ⟨M', M0', hM'⟩ := far_bound (T.contour c).edges
  obtain ⟨y, y1, y2⟩ := T.exists_far_both (max M M') (le_max_of_le_left M0)
  obtain ⟨a1, a2⟩ := hM y ((le_max_left _ _).trans_lt y1)
  obtain ⟨b1, b2⟩ := hM' (T.point y) ((le_max_right _ _).trans_lt y2)
  have k1 := h.linked_iff hz a1
  have k2 := h'.linked_iff hz' b1
  have k3 : Linked c.edges z y ↔ Linked (T.contour c).edges (T.point z) (T.point y) := by
    rw [contour_edges]
    refine ⟨T.linked, fun g => ?_⟩
    have := T.inv.linked g
    rw [inv_point, inv_point, List.map_map] at this
    have e : c.edges.map (T.inv.segment ∘ T.segment) = c.edges := by
      conv_rhs => rw [← List.map_id c.edges]
      refine List.map_congr_left fun s _ => ?_
      simp [segment, inv_point]
    rwa [e] at this
  clear hM hM'
  tauto

theorem inside_contours {C : List Contour} (h : ∀ c ∈ C, SimpleContour c) {z : Point} (hz : z ∉ segsPts (C.flatMap Contour.edges)) :
    Inside ((C.flatMap Contour.edges).map T.segment) (T.point z) ↔ Inside (C.flatMap Contour.edges) z := by
  induction C with
  | nil => simp [inside_nil]
  | cons c C ih =>
    rw [List.flatMap_cons, segsPts_append, Set.mem_union, not_or] at hz
    rw [List.flatMap_cons, List.map_append, inside_append, inside_append, ih (fun c hc => h c (by simp [hc])) hz.2, ← contour_edges,
      T.inside_contour (h c (by simp)) hz.1]

theorem region_contours {C : List Contour} (h : ∀ c ∈ C, SimpleContour c) :
    regionPts ((C.flatMap Contour.edges).map T.segment) = T.point '' regionPts (C.flatMap Contour.edges) := by
  ext q
  obtain ⟨q, rfl⟩ := T.surjective q
  rw [mem_image]
  unfold regionPts
  by_cases hq : q ∈ segsPts (C.flatMap Contour.edges)
  · exact iff_of_true (Or.inl (by rw [segsPts_map, mem_image]; exact hq)) (Or.inl hq)
  · have hq' : T.point q ∉ segsPts ((C.flatMap Contour.edges).map T.segment) := by rwa [segsPts_map, mem_image]
    constructor
    · rintro (g | g)
      · exact absurd g hq'
      · exact Or.inr ((T.inside_contours h hq).1 g)
    · rintro (g | g)
      · exact absurd g hq
      · exact Or.inr ((T.inside_contours h hq).2 g)

theorem region_contour {c : Contour} (h : SimpleContour c) : regionPts (T.contour c).edges = T.point '' regionPts c.edges := by
  have := T.region_contours (C := [c]) (by simpa using h)
  rwa [List.flatMap_cons, List.flatMap_nil, List.append_nil, ← contour_edges] at this

theorem edges_contours (p : Polygon) : p.edges = (p.border :: p.holes).flatMap Contour.edges := rfl

theorem region_polygon {p : Polygon} (h : ValidPolygon p) : regionPts (T.polygon p).edges = T.point '' regionPts p.edges := by
  rw [polygon_edges, edges_contours]
  refine T.region_contours fun c hc => ?_
  rcases List.mem_cons.1 hc with rfl | hc
  · exact h.border
  · exact h.holes c hc

theorem apart {A B A' B' : List Segment} (hA : regionPts A' = T.point '' regionPts A) (hB : segsPts B' = T.point '' segsPts B)
    (rB : regionPts B' = T.point '' regionPts B) (h : Apart A B) : Apart A' B' := by
  intro m hm hn hi
  obtain ⟨m, rfl⟩ := T.surjective m
  rw [hA, mem_image] at hm
  rw [hB, mem_image] at hn
  have : T.point m ∈ regionPts B' := Or.inr hi
  rw [rB, mem_image] at this
  exact h m hm hn (this.resolve_left hn)

theorem valid {p : Polygon} (h : ValidPolygon p) : ValidPolygon (T.polygon p) where
  border := T.simple h.border
  holes := by
    intro c hc
    obtain ⟨d, hd, rfl⟩ := List.mem_map.1 hc
    exact T.simple (h.holes d hd)
  noOverlap := by rw [polygon_edges]; exact T.noOverlap h.noOverlap
  inside := by
    intro c hc
    obtain ⟨d, hd, rfl⟩ := List.mem_map.1 hc
    show regionPts (T.contour d).edges ⊆ regionPts (T.contour p.border).edges
    rw [T.region_contour (h.holes d hd), T.region_contour h.border]
    exact Set.image_mono (h.inside d hd)
  outside := by
    intro c hc m hm hn hi
    obtain ⟨d, hd, rfl⟩ := List.mem_map.1 hc
    obtain ⟨m, rfl⟩ := T.surjective m
    change T.point m ∈ segsPts (T.contour p.border).edges at hm
    rw [contour_edges, segsPts_map, mem_image] at hm hn
    exact h.outside d hd m hm hn ((T.inside_contour (h.holes d hd) hn).1 hi)
  apart := by
    show (p.holes.map T.contour).Pairwise _
    rw [List.pairwise_map]
    refine List.Pairwise.imp_of_mem ?_ h.apart
    intro c d hc hd g
    have e : ∀ c : Contour, segsPts (T.contour c).edges = T.point '' segsPts c.edges := fun c => by rw [contour_edges, segsPts_map]
    exact ⟨T.apart (T.region_contour (h.holes c hc)) (e d) (T.region_contour (h.holes d hd)) g.1,
      T.apart (T.region_contour (h.holes d hd)) (e c) (T.region_contour (h.holes c hc)) g.2⟩

theorem valid_polygons {ps : List Polygon} (h : ValidPolygons ps) : ValidPolygons (ps.map T.polygon) where
  valid := by
    intro p hp
    obtain ⟨q, hq, rfl⟩ := List.mem_map.1 hp
    exact T.valid (h.valid q hq)
  noOverlap := by rw [polygons_edges]; exact T.noOverlap h.noOverlap
  apart := by
    rw [List.pairwise_map]
    refine List.Pairwise.imp_of_mem ?_ h.apart
    intro p q hp hq g
    have e : ∀ p : Polygon, segsPts (T.polygon p).edges = T.point '' segsPts p.edges := fun c => by rw [polygon_edges, segsPts_map]
    exact ⟨T.apart (T.region_polygon (h.valid p hp)) (e q) (T.region_polygon (h.valid q hq)) g.1,
      T.apart (T.region_polygon (h.valid q hq)) (e p) (T.region_polygon (h.valid p hp)) g.2⟩

theorem detached {ps : List Polygon} (h : Detached ps) : Detached (ps.map T.polygon) := by
  unfold Detached at h ⊢
  have e : ((ps.map T.polygon).flatMap fun p => p.border :: p.holes) = (ps.flatMap fun p => p.border :: p.holes).map T.contour := by
    rw [List.map_flatMap, List.flatMap_map]
    rfl
  rw [e, List.pairwise_map]
  refine h.imp fun g q h1 h2 => ?_
  obtain ⟨q, rfl⟩ := T.surjective q
  rw [contour_edges, segsPts_map, mem_image] at h1 h2
  exact g q h1 h2

end Affine

end Clipping
