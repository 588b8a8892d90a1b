import Verif.Properties.Unique
import Verif.Properties.Kinds

/-!
# C84: a description of the points determines the result

Whoever can write down polygons with the points which an operation should return knows what it returns, vertex by vertex.  Applications: operands
one of which contains the other, operands which have boundary points in common at most, cutting out and filling of holes.
-/

namespace Clipping

open Classical in
/-- Polygons which have the points that the operation should return, up to points on edges, have the same points as the result. -/
theorem result_points {o : Orient} (ok : OrientOk o) (tb : TieBreak) {a b : List Polygon} (va : ValidPolygons a) (vb : ValidPolygons b)
    (da : Detached a) (db : Detached b) (k : Operation) {c : List Polygon} (vc : ValidPolygons c)
    (h : ∀ q, q ∉ segsPts (a.flatMap Polygon.edges ++ b.flatMap Polygon.edges ++ c.flatMap Polygon.edges) →
      (q ∈ polysPts c ↔ k.holds (decide (q ∈ polysPts a)) (decide (q ∈ polysPts b)) = true)) :
    ∃ g, k.call o tb a b = .ok g ∧ ValidPolygons g.polygons ∧ polysPts c = polysPts g.polygons := by
  obtain ⟨g, e, O⟩ := Operation.call_outlines ok tb k va vb
  have vg := Operation.call_valid ok tb k va vb da db e
  refine ⟨g, e, vg, ?_⟩
  rw [vc.polysPts_eq, vg.polysPts_eq]
  refine regionPts_eq_of_inside vc.noOverlap vc.noOverlap_even.2 vg.noOverlap vg.noOverlap_even.2
    (X := a.flatMap Polygon.edges ++ b.flatMap Polygon.edges ++ c.flatMap Polygon.edges) (fun s hs => ?_) fun q hq => ?_
  · rcases List.mem_append.1 hs with hs | hs
    · rcases List.mem_append.1 hs with hs | hs
      · exact va.noOverlap.1 s hs
      · exact vb.noOverlap.1 s hs
    · exact vc.noOverlap.1 s hs
  · have hq' := h q hq
    rw [segsPts_append, Set.mem_union, not_or] at hq
    obtain ⟨h1, h2⟩ := hq
    rw [O.inside q h1]
    rw [segsPts_append, Set.mem_union, not_or] at h1
    unfold Combined
    simp only [va.mem_off h1.1, vb.mem_off h1.2, vc.mem_off h2] at hq'
    rw [hq']

section

variable {o : Orient} (ok : OrientOk o) (tb : TieBreak) {a b : List Polygon} (va : ValidPolygons a) (vb : ValidPolygons b)
  (sa : Standard a) (sb : Standard b) (da : Detached a) (db : Detached b)

include ok va vb sa sb da db

open Classical in
/-- **C84** Polygons in normal form, the contours of which do not touch each other, which have the points that the operation should return (up to
points on edges), are the result. -/
theorem result_determined (k : Operation) {c : List Polygon} (vc : ValidPolygons c) (sc : Standard c) (dc : Detached c)
    (h : ∀ q, q ∉ segsPts (a.flatMap Polygon.edges ++ b.flatMap Polygon.edges ++ c.flatMap Polygon.edges) →
      (q ∈ polysPts c ↔ k.holds (decide (q ∈ polysPts a)) (decide (q ∈ polysPts b)) = true)) :
    ∃ g, k.call o tb a b = .ok g ∧ g.polygons = c := by
  obtain ⟨g, e, vg, hg⟩ := result_points ok tb va vb da db k vc h
  exact ⟨g, e, (polygons_equal vc dc sc vg (Operation.call_standard ok tb k va vb sa sb e) hg).symm⟩

/-- **C84** If an operand contains the other one, their intersection is the inner and their union the outer one, vertex by vertex. -/
theorem nested_equal (h : polysPts a ⊆ polysPts b) :
    (∃ g, Operation.intersection.call o tb a b = .ok g ∧ g.polygons = a) ∧ (∃ g, Operation.intersection.call o tb b a = .ok g ∧ g.polygons = a) ∧
    (∃ g, Operation.union.call o tb a b = .ok g ∧ g.polygons = b) ∧ ∃ g, Operation.union.call o tb b a = .ok g ∧ g.polygons = b := by
  refine ⟨result_determined ok tb va vb sa sb da db .intersection va sa da fun q _ => ?_,
    result_determined ok tb vb va sb sa db da .intersection va sa da fun q _ => ?_,
    result_determined ok tb va vb sa sb da db .union vb sb db fun q _ => ?_,
    result_determined ok tb vb va sb sa db da .union vb sb db fun q _ => ?_⟩ <;>
  · have := @h q
    simp only [Operation.holds, Bool.and_eq_true, Bool.or_eq_true, decide_eq_true_eq]
    tauto

/-- **C84** If common points are on edges only, nothing is removed by subtraction, vertex by vertex. -/
theorem apart_equal (h : polysPts a ∩ polysPts b ⊆ segsPts (a.flatMap Polygon.edges ++ b.flatMap Polygon.edges)) :
    ∃ g, Operation.difference.call o tb a b = .ok g ∧ g.polygons = a := by
  refine result_determined ok tb va vb sa sb da db .difference va sa da fun q hq => ?_
  rw [segsPts_append, Set.mem_union, not_or] at hq
  have := @h q
  simp only [Set.mem_inter_iff] at this
  simp only [Operation.holds, Bool.and_eq_true, Bool.not_eq_true', decide_eq_true_eq, decide_eq_false_iff_not]
  tauto

end

/-- The result with given polygons, if there is one only. -/
theorem polygon_of_polygons {g : Geometry} (hk : g.IsPolygonal) {p : Polygon} (h : g.polygons = [p]) : g = .polygon p := by
  cases g with
  | polygon q =>
    simp only [Geometry.polygons, List.cons.injEq, and_true] at h
    rw [h]
  | multipolygon ps =>
    have h2 : 2 ≤ ps.length := hk
    simp only [Geometry.polygons] at h
    rw [h] at h2
    simp at h2
  | _ => simp [Geometry.polygons] at h

section

variable {o : Orient} (ok : OrientOk o) (tb : TieBreak) {c d d' : Contour} (v : ValidPolygon ⟨c, [d]⟩) (s : Standard [⟨c, [d]⟩]) (dt : Detached [⟨c, [d]⟩])
  (vd : SimpleContour d') (sd : Standard [⟨d', []⟩]) (e : regionPts d'.edges = regionPts d.edges)

theorem hole_standard (s : Standard [⟨c, [d]⟩]) : Standard [⟨c, []⟩] := by
  have hb := s.normal.border _ (List.mem_singleton_self _)
  have ho := (s.oriented _ (List.mem_singleton_self _)).1
  refine ⟨⟨?_, ?_, List.pairwise_singleton _ _, ?_⟩, ?_⟩
  · intro p hp
    rw [List.mem_singleton.1 hp]
    exact hb
  · intro p hp
    rw [List.mem_singleton.1 hp]
    simp
  · intro p hp
    rw [List.mem_singleton.1 hp]
    exact List.pairwise_singleton _ _
  · intro p hp
    rw [List.mem_singleton.1 hp]
    exact ⟨ho, by simp⟩

theorem bare_pts (c : Contour) : (⟨c, []⟩ : Polygon).pts = regionPts c.edges := by
  rw [polygon_pts_eq]
  simp [Polygon.edges]

include v in
/-- Points off the edges are in a polygon with a hole exactly if they are in its border and not in its hole. -/
theorem hole_mem {q : Point} (hc : q ∉ segsPts c.edges) (hd : q ∉ segsPts d.edges) :
    q ∈ (⟨c, [d]⟩ : Polygon).pts ↔ q ∈ regionPts c.edges ∧ q ∉ regionPts d.edges := by
  have ee : (⟨c, [d]⟩ : Polygon).edges = c.edges ++ d.edges := by simp [Polygon.edges]
  have hn : q ∉ segsPts (c.edges ++ d.edges) := by
    rw [segsPts_append]
    exact fun k => k.elim hc hd
  have hsub : q ∈ regionPts d.edges → q ∈ regionPts c.edges := fun k => v.inside d (by simp) k
  rw [polygon_pts_eq, ee]
  have i : Inside (c.edges ++ d.edges) q ↔ (Inside c.edges q ↔ ¬ Inside d.edges q) := inside_append _ _ _
  simp only [regionPts, Set.mem_ofPred_eq, hn, hc, hd, false_or] at hsub ⊢
  rw [i]
  tauto

include v s dt vd sd e

include ok in
/-- **C84** `subtract_polygons` of the region of a hole: the hole is cut out, vertex by vertex. -/
theorem subtractPolygons_cut : subtractPolygons o tb ⟨c, []⟩ ⟨d', []⟩ = .ok (.polygon ⟨c, [d]⟩) := by
  obtain ⟨g, h1, h2⟩ := result_determined ok tb (v.border.validPolygon.validPolygons) (vd.validPolygon.validPolygons) (hole_standard s) sd
    (detached_single rfl) (detached_single rfl) .difference v.validPolygons s dt (fun q hq => by
      simp only [List.flatMap_cons, List.flatMap_nil, List.append_nil, segsPts_append, Set.mem_union, not_or] at hq
      have ee : (⟨c, [d]⟩ : Polygon).edges = c.edges ++ d.edges := by simp [Polygon.edges]
      rw [ee, segsPts_append, Set.mem_union, not_or] at hq
      simp only [polysPts_singleton, bare_pts, hole_mem v hq.2.1 hq.2.2, e, Operation.holds, Bool.and_eq_true, Bool.not_eq_true', decide_eq_true_eq,
        decide_eq_false_iff_not])
  change subtractPolygons o tb ⟨c, []⟩ ⟨d', []⟩ = .ok g at h1
  rw [h1, polygon_of_polygons (holeyDifference_kind (first := polygonOperand ⟨c, []⟩) trivial g h1) h2]

/-- **C84** `unite_polygons` with the region of the only hole: the hole is filled, vertex by vertex. -/
theorem unitePolygons_fill : unitePolygons tb ⟨c, [d]⟩ ⟨d', []⟩ = .ok (.polygon ⟨c, []⟩) := by
  obtain ⟨g, h1, h2⟩ := result_determined (Classical.choose_spec exists_orient) tb v.validPolygons (vd.validPolygon.validPolygons) s sd
    dt (detached_single rfl) .union (v.border.validPolygon.validPolygons) (hole_standard s) (detached_single rfl) (fun q hq => by
      simp only [List.flatMap_cons, List.flatMap_nil, List.append_nil, segsPts_append, Set.mem_union, not_or] at hq
      have ee : (⟨c, [d]⟩ : Polygon).edges = c.edges ++ d.edges := by simp [Polygon.edges]
      rw [ee, segsPts_append, Set.mem_union, not_or] at hq
      have hsub : q ∈ regionPts d.edges → q ∈ regionPts c.edges := fun k => v.inside d (by simp) k
      simp only [polysPts_singleton, bare_pts, hole_mem v hq.1.1.1 hq.1.1.2, e, Operation.holds, Bool.or_eq_true, decide_eq_true_eq]
      by_cases k : q ∈ regionPts d.edges
      · simp [k, hsub k]
      · simp [k])
  change unitePolygons tb ⟨c, [d]⟩ ⟨d', []⟩ = .ok g at h1
  rw [h1, polygon_of_polygons (holeyUnion_kind g h1) h2]

end

/-! ### Examples -/

/-- the region of the hole of `exStandard` -/
def exPlug : Contour := ⟨[⟨1, 1⟩, ⟨3, 1⟩, ⟨3, 3⟩, ⟨1, 3⟩]⟩

theorem exPlug_simple : SimpleContour exPlug := simpleCheck_spec (by decide +kernel)

theorem exPlug_standard : Standard [⟨exPlug, []⟩] := by
  have corner : exPlug.Cornered := by
    refine cornered_of_all ?_
    have : ∀ l ∈ exPlug.vertices.cyclicPermutations, (match l with | u :: v :: w :: _ => cross u v w | _ => 1) ≠ 0 := by decide +kernel
    intro l hl u v w rest e
    have := this l hl
    rw [e] at this
    exact this
  refine ⟨⟨?_, ?_, List.pairwise_singleton _ _, ?_⟩, ?_⟩ <;> intro p hp <;> obtain rfl := List.mem_singleton.1 hp
  · exact ⟨⟨_, _, rfl, by decide +kernel⟩, corner⟩
  · simp
  · exact List.pairwise_singleton _ _
  · exact ⟨((contourOrientation_spec _ exPlug_simple).1).1 (by decide +kernel), by simp⟩

theorem exPlug_region : regionPts exPlug.edges = regionPts (Contour.mk [⟨1, 1⟩, ⟨1, 3⟩, ⟨3, 3⟩, ⟨3, 1⟩]).edges := by
  have h : SameContour exPlug ⟨[⟨1, 1⟩, ⟨1, 3⟩, ⟨3, 3⟩, ⟨3, 1⟩]⟩ := Or.inr ⟨3, by simp [exPlug]⟩
  exact h.sameEdges.regionPts_eq

/-- A square is cut out of a square, and the hole is filled again. -/
example {o : Orient} (ok : OrientOk o) (tb : TieBreak) :
    subtractPolygons o tb ⟨⟨[⟨0, 0⟩, ⟨4, 0⟩, ⟨4, 4⟩, ⟨0, 4⟩]⟩, []⟩ ⟨exPlug, []⟩ =
      .ok (.polygon ⟨⟨[⟨0, 0⟩, ⟨4, 0⟩, ⟨4, 4⟩, ⟨0, 4⟩]⟩, [⟨[⟨1, 1⟩, ⟨1, 3⟩, ⟨3, 3⟩, ⟨3, 1⟩]⟩]⟩) ∧
    unitePolygons tb ⟨⟨[⟨0, 0⟩, ⟨4, 0⟩, ⟨4, 4⟩, ⟨0, 4⟩]⟩, [⟨[⟨1, 1⟩, ⟨1, 3⟩, ⟨3, 3⟩, ⟨3, 1⟩]⟩]⟩ ⟨exPlug, []⟩ =
      .ok (.polygon ⟨⟨[⟨0, 0⟩, ⟨4, 0⟩, ⟨4, 4⟩, ⟨0, 4⟩]⟩, []⟩) :=
  have v := exStandard_valid.valid _ (List.mem_singleton_self _)
  ⟨subtractPolygons_cut ok tb v exStandard_standard exStandard_detached exPlug_simple exPlug_standard exPlug_region,
    unitePolygons_fill tb v exStandard_standard exStandard_detached exPlug_simple exPlug_standard exPlug_region⟩

/-- A square with a hole and the square of its hole have boundary points in common only. -/
example {o : Orient} (ok : OrientOk o) (tb : TieBreak) :
    ∃ g, subtractPolygons o tb ⟨⟨[⟨0, 0⟩, ⟨4, 0⟩, ⟨4, 4⟩, ⟨0, 4⟩]⟩, [⟨[⟨1, 1⟩, ⟨1, 3⟩, ⟨3, 3⟩, ⟨3, 1⟩]⟩]⟩ ⟨exPlug, []⟩ = .ok g ∧ g.polygons = exStandard := by
  have v := exStandard_valid.valid _ (List.mem_singleton_self _)
  refine apart_equal ok tb exStandard_valid exPlug_simple.validPolygon.validPolygons exStandard_standard exPlug_standard exStandard_detached
    (detached_single rfl) ?_
  rintro q ⟨h1, h2⟩
  by_contra hn
  rw [polysPts_singleton, bare_pts, exPlug_region] at h2
  simp only [exStandard, List.flatMap_cons, List.flatMap_nil, List.append_nil, segsPts_append, Set.mem_union, not_or, Polygon.edges] at hn
  rw [exStandard, polysPts_singleton, hole_mem v hn.1.1 hn.1.2] at h1
  exact h1.2 h2

/-- The square of the hole is contained in the square without the hole. -/
example {o : Orient} (ok : OrientOk o) (tb : TieBreak) :
    ∃ g, intersectPolygons o tb ⟨exPlug, []⟩ ⟨⟨[⟨0, 0⟩, ⟨4, 0⟩, ⟨4, 4⟩, ⟨0, 4⟩]⟩, []⟩ = .ok g ∧ g.polygons = [⟨exPlug, []⟩] := by
  have v := exStandard_valid.valid _ (List.mem_singleton_self _)
  refine (nested_equal ok tb exPlug_simple.validPolygon.validPolygons v.border.validPolygon.validPolygons exPlug_standard (hole_standard exStandard_standard)
    (detached_single rfl) (detached_single rfl) ?_).1
  rw [polysPts_singleton, polysPts_singleton, bare_pts, bare_pts, exPlug_region]
  exact v.inside _ (by simp)

end Clipping
