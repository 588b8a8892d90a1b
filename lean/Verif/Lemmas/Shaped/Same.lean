import Verif.Lemmas.Shaped.Owner

/-!
# Polygons the contours of which do not touch are determined by their points
-/

namespace Clipping

open Sweep

theorem SameContour.symm {c d : Contour} (h : SameContour c d) : SameContour d c := by
  rcases h with h | h
  · exact Or.inl h.symm
  · refine Or.inr ?_
    have := h.symm.reverse
    rwa [List.reverse_reverse] at this

theorem matched_of_unique {α : Type} {R : α → α → Prop} {l l' : List α} (nl : l.Nodup) (nl' : l'.Nodup)
    (h1 : ∀ a ∈ l, ∃ b ∈ l', R a b) (h2 : ∀ b ∈ l', ∃ a ∈ l, R a b)
    (u1 : ∀ a ∈ l, ∀ b ∈ l', ∀ b' ∈ l', R a b → R a b' → b = b') (u2 : ∀ a ∈ l, ∀ a' ∈ l, ∀ b ∈ l', R a b → R a' b → a = a') :
    Matched R l l' := by
  classical
  have : ∀ a, ∃ b, a ∈ l → b ∈ l' ∧ R a b := fun a => by
    by_cases ha : a ∈ l
    · obtain ⟨b, hb, h⟩ := h1 a ha
      exact ⟨b, fun _ => ⟨hb, h⟩⟩
    · exact ⟨a, fun g => absurd g ha⟩
  choose f hf using this
  refine ⟨l.map f, ?_, ?_⟩
  · rw [List.forall₂_map_right_iff]
    exact List.forall₂_same.2 fun a ha => (hf a ha).2
  · refine (List.perm_ext_iff_of_nodup ?_ nl').2 fun b => ?_
    · exact nl.map_on fun a ha a' ha' e => u2 a ha a' ha' (f a) (hf a ha).1 (hf a ha).2 (e ▸ (hf a' ha').2)
    · rw [List.mem_map]
      constructor
      · rintro ⟨a, ha, rfl⟩
        exact (hf a ha).1
      · intro hb
        obtain ⟨a, ha, h⟩ := h2 b hb
        exact ⟨a, ha, u1 a ha _ (hf a ha).1 b hb (hf a ha).2 h⟩

theorem ValidPolygons.region {ps : List Polygon} (h : ValidPolygons ps) : regionPts (ps.flatMap Polygon.edges) = polysPts ps := by
  have e : SameEdges (ps.flatMap polygonEdges) (ps.flatMap Polygon.edges) :=
    SameEdges.flatMap _ _ _ fun p hp => (h.valid p hp).sameEdges
  rw [← e.regionPts_eq, h.pts_eq]
  rfl

namespace Separate

variable {ps qs : List Polygon}

theorem edges_pts (H : Separate ps) (H' : Separate qs) (h : polysPts ps = polysPts qs) :
    segsPts (ps.flatMap Polygon.edges) = segsPts (qs.flatMap Polygon.edges) := by
  refine segsPts_of_region H.valid.noOverlap_even.1 H.valid.noOverlap_even.2 H'.valid.noOverlap_even.1 H'.valid.noOverlap_even.2 ?_
  rw [H.valid.region, H'.valid.region, h]

theorem inside_iff (H : Separate ps) (H' : Separate qs) (h : polysPts ps = polysPts qs) {z : Point}
    (hz : z ∉ segsPts (ps.flatMap Polygon.edges)) :
    Inside (ps.flatMap Polygon.edges) z ↔ Inside (qs.flatMap Polygon.edges) z := by
  rw [← H.valid.mem_off hz, ← H'.valid.mem_off (by rwa [← H.edges_pts H' h]), h]

/-- A contour is not the border of a polygon and a hole of a polygon. -/
theorem not_both (H : Separate ps) (H' : Separate qs) (h : polysPts ps = polysPts qs) {p q : Polygon} (hp : p ∈ ps) (hq : q ∈ qs)
    {d : Contour} (hd : d ∈ q.holes) : ¬ SameContour p.border d := by
  intro g
  have V := H.valid.valid p hp
  have m1 : vtx p.border 0 ∈ segsPts p.border.edges := ⟨_, vtx_edge V.border.nonempty 0, Segment.start_mem _⟩
  obtain ⟨δ₁, δ₁0, hδ₁⟩ := H.border_near hp m1
  obtain ⟨δ₂, δ₂0, hδ₂⟩ := H'.hole_near hq hd (g.sameEdges.segsPts_eq ▸ m1)
  obtain ⟨z, hz, z2, -, z3⟩ := (near_both V.border.noOverlap V.border.even m1 H.valid.noOverlap.1 (lt_min δ₁0 δ₂0)).1
  refine hδ₂ z ⟨hz.1.trans_le (min_le_right _ _), hz.2.trans_le (min_le_right _ _)⟩ ((g.sameEdges.inside_iff z).1 z3) ?_
  exact (H.inside_iff H' h z2).1 (hδ₁ z ⟨hz.1.trans_le (min_le_left _ _), hz.2.trans_le (min_le_left _ _)⟩ z2 z3)

theorem contour (H : Separate ps) (H' : Separate qs) (h : polysPts ps = polysPts qs) {c : Contour} (hc : c ∈ contoursOf ps) :
    ∃ d ∈ contoursOf qs, SameContour c d := by
  refine H.loose.contour H'.loose ?_ hc
  rw [contoursOf_edges, contoursOf_edges]
  exact H.edges_pts H' h

theorem border (H : Separate ps) (H' : Separate qs) (h : polysPts ps = polysPts qs) {p : Polygon} (hp : p ∈ ps) :
    ∃ q ∈ qs, SameContour p.border q.border := by
  obtain ⟨d, hd, g⟩ := H.contour H' h (H.border_mem hp)
  obtain ⟨q, hq, hd⟩ := List.mem_flatMap.1 hd
  rcases List.mem_cons.1 hd with rfl | hd
  · exact ⟨q, hq, g⟩
  · exact absurd g (H.not_both H' h hp hq hd)

theorem unique (H : Separate ps) {c d e : Contour} (hc : c ∈ contoursOf ps) (hd : d ∈ contoursOf ps) (h1 : SameContour c e)
    (h2 : SameContour d e) : c = d := by
  have m1 : vtx c 0 ∈ segsPts c.edges := ⟨_, vtx_edge (H.simple hc).nonempty 0, Segment.start_mem _⟩
  refine H.loose.eq_of_common hc hd m1 ?_
  rw [h2.sameEdges.segsPts_eq, ← h1.sameEdges.segsPts_eq]
  exact m1

theorem hole (H : Separate ps) (H' : Separate qs) (h : polysPts ps = polysPts qs) {p : Polygon} (hp : p ∈ ps) {c : Contour}
    (hc : c ∈ p.holes) : ∃ q ∈ qs, SameContour p.border q.border ∧ ∃ d ∈ q.holes, SameContour c d := by
  obtain ⟨d, hd, g⟩ := H.contour H' h (H.hole_mem hp hc)
  obtain ⟨q, hq, hd⟩ := List.mem_flatMap.1 hd
  rcases List.mem_cons.1 hd with rfl | hd
  · exact absurd g.symm (H'.not_both H h.symm hq hp hc)
  refine ⟨q, hq, ?_, d, hd, g⟩
  obtain ⟨q', hq', b⟩ := H.border H' h hp
  obtain ⟨p', hp', b'⟩ := H'.border H h.symm hq
  by_cases ne : q' = q
  · exact ne ▸ b
  have sc := H.simple (H.hole_mem hp hc)
  have m1 : vtx c 0 ∈ segsPts c.edges := ⟨_, vtx_edge sc.nonempty 0, Segment.start_mem _⟩
  have m2 : vtx c 0 ∈ segsPts d.edges := g.sameEdges.segsPts_eq ▸ m1
  rcases H'.owner hq hq' hd m2 ((b.sameEdges.inside_iff _).1 (H.hole_inside hp hc m1)) with rfl | s
  · exact b
  rcases H.owner hp hp' hc m1 ((b'.sameEdges.inside_iff _).1 (H'.hole_inside hq hd m2)) with rfl | s'
  · exact b'.symm
  exfalso
  have P := H.simple (H.border_mem hp)
  have Q := H'.simple (H'.border_mem hq)
  have r1 : vtx p.border 0 ∈ segsPts p.border.edges := ⟨_, vtx_edge P.nonempty 0, Segment.start_mem _⟩
  refine P.not_mutual Q (fun r hr => Or.inr ((b.sameEdges.inside_iff r).2 (s r hr))) r1 ?_ ((b'.sameEdges.inside_iff _).2 (s' _ r1))
  intro r2
  exact ne (H'.polygon_eq hq' hq (c := q'.border) (c' := q.border) (by simp) (by simp) (b.sameEdges.segsPts_eq ▸ r1) r2)

theorem polygons_nodup (H : Separate ps) : ps.Nodup := by
  refine List.Pairwise.imp_of_mem ?_ (List.pairwise_flatMap.1 H.nodup).2
  rintro p q hp - h rfl
  exact h p.border (by simp) p.border (by simp) rfl

theorem border_unique (H : Separate ps) {p p' : Polygon} (hp : p ∈ ps) (hp' : p' ∈ ps) {e : Contour} (h1 : SameContour p.border e)
    (h2 : SameContour p'.border e) : p = p' := by
  have e := H.unique (H.border_mem hp) (H.border_mem hp') h1 h2
  have m1 : vtx p.border 0 ∈ segsPts p.border.edges := ⟨_, vtx_edge (H.simple (H.border_mem hp)).nonempty 0, Segment.start_mem _⟩
  exact H.polygon_eq hp hp' (c := p.border) (c' := p'.border) (by simp) (by simp) m1 (e ▸ m1)

theorem polygon (H : Separate ps) (H' : Separate qs) (h : polysPts ps = polysPts qs) {p : Polygon} (hp : p ∈ ps) :
    ∃ q ∈ qs, SamePolygon p q := by
  obtain ⟨q, hq, b⟩ := H.border H' h hp
  refine ⟨q, hq, b, ?_⟩
  have there : ∀ c ∈ p.holes, ∃ d ∈ q.holes, SameContour c d := by
    intro c hc
    obtain ⟨q', hq', b', hd⟩ := H.hole H' h hp hc
    rwa [H'.border_unique hq hq' b.symm b'.symm]
  have back : ∀ d ∈ q.holes, ∃ c ∈ p.holes, SameContour c d := by
    intro d hd
    obtain ⟨p', hp', b', c, hc, g⟩ := H'.hole H h.symm hq hd
    rw [H.border_unique hp hp' b b'.symm]
    exact ⟨c, hc, g.symm⟩
  exact matched_of_unique (H.holes_nodup hp) (H'.holes_nodup hq) there back
    (fun a _ c hc d hd h1 h2 => H'.unique (H'.hole_mem hq hc) (H'.hole_mem hq hd) h1.symm h2.symm)
    (fun c hc d hd e _ h1 h2 => H.unique (H.hole_mem hp hc) (H.hole_mem hp hd) h1 h2)

/-- Polygons with the same points are the same. -/
theorem same (H : Separate ps) (H' : Separate qs) (h : polysPts ps = polysPts qs) : SamePolygons ps qs := by
  have back : ∀ q ∈ qs, ∃ p ∈ ps, SamePolygon p q := by
    intro q hq
    obtain ⟨p, hp, b⟩ := H'.border H h.symm hq
    obtain ⟨q', hq', g⟩ := H.polygon H' h hp
    refine ⟨p, hp, ?_⟩
    rwa [H'.border_unique hq hq' b g.border.symm]
  exact matched_of_unique H.polygons_nodup H'.polygons_nodup (fun p hp => H.polygon H' h hp) back
    (fun p _ q hq q' hq' h1 h2 => H'.border_unique hq hq' h1.border.symm h2.border.symm)
    (fun p hp p' hp' q _ h1 h2 => H.border_unique hp hp' h1.border h2.border)

end Separate

end Clipping
