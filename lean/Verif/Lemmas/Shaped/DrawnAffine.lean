import Verif.Lemmas.Shaped.Drawn
import Verif.Lemmas.Shaped.Affine

/-!
# Affine images of drawings
-/

namespace Clipping

open Sweep

/-- One contour and the others. -/
theorem inside_split {C R : List Contour} {c : Contour} (h : C.Perm (c :: R)) (q : Point) :
    Inside (C.flatMap Contour.edges) q ↔ (Inside c.edges q ↔ ¬ Inside (R.flatMap Contour.edges) q) := by
  rw [inside_perm (h.flatMap_right _), List.flatMap_cons, inside_append]

theorem Contour.split_off {C R : List Contour} {c : Contour} (h : C.Perm (c :: R)) (n : NoOverlap (C.flatMap Contour.edges)) {e : Segment}
    (he : e ∈ c.edges) {q : Point} (hq : ∀ e' ∈ C.flatMap Contour.edges, q ∈ e'.pts → e' = e) : q ∉ segsPts (R.flatMap Contour.edges) := by
  rintro ⟨e', he', h'⟩
  have n' := n.perm (h.flatMap_right _)
  rw [List.flatMap_cons] at n'
  obtain rfl := hq e' ((h.flatMap_right _).mem_iff.2 (by rw [List.flatMap_cons]; exact List.mem_append_right _ he')) h'
  exact (List.pairwise_append.1 n'.2).2.2 e' he e' he' (overlapping_self (n.1 e' ((h.flatMap_right _).mem_iff.2
    (by rw [List.flatMap_cons]; exact List.mem_append_left _ he))))

theorem Affine.segment_injective (T : Affine) : Function.Injective T.segment := by
  rintro ⟨a, b⟩ ⟨c, d⟩ h
  simp only [Affine.segment, Segment.mk.injEq] at h
  rw [T.injective h.1, T.injective h.2]

theorem Drawn.contours {ps : List Polygon} (h : Drawn ps) : ∀ c ∈ contoursOf ps, SimpleContour c := by
  intro c hc
  obtain ⟨p, hp, hc⟩ := List.mem_flatMap.1 hc
  rcases List.mem_cons.1 hc with rfl | hc
  · exact h.border p hp
  · exact h.hole p hp c hc

/-- Whether the other contours surround a point of a contour is the same for images. -/
theorem Drawn.others {ps : List Polygon} (h : Drawn ps) (T : Affine) {c : Contour} (hc : c ∈ contoursOf ps) {e : Segment} (he : e ∈ c.edges) {q : Point}
    (hq : ∀ e' ∈ (ps.map T.polygon).flatMap Polygon.edges, T.point q ∈ e'.pts → e' = T.segment e) :
    (∀ e' ∈ ps.flatMap Polygon.edges, q ∈ e'.pts → e' = e) ∧
    ((Inside ((ps.map T.polygon).flatMap Polygon.edges) (T.point q) ↔ Inside (T.contour c).edges (T.point q)) ↔
      (Inside (ps.flatMap Polygon.edges) q ↔ Inside c.edges q)) := by
  have hq' : ∀ e' ∈ ps.flatMap Polygon.edges, q ∈ e'.pts → e' = e := by
    intro e' he' g
    refine T.segment_injective (hq _ ?_ ?_)
    · rw [T.polygons_edges]; exact List.mem_map_of_mem he'
    · rw [T.segment_pts, Affine.mem_image]; exact g
  refine ⟨hq', ?_⟩
  obtain ⟨R, hR⟩ := (List.perm_cons_erase hc : (contoursOf ps).Perm (c :: (contoursOf ps).erase c)) |> fun h => (⟨_, h⟩ : ∃ R, (contoursOf ps).Perm (c :: R))
  have off : q ∉ segsPts (R.flatMap Contour.edges) :=
    Contour.split_off hR (by rw [contoursOf_edges]; exact h.noOverlap) he (by rw [contoursOf_edges]; exact hq')
  have i := T.inside_contours (C := R) (fun d hd => h.contours d (hR.mem_iff.2 (List.mem_cons_of_mem _ hd))) off
  have e1 : (R.map T.contour).flatMap Contour.edges = (R.flatMap Contour.edges).map T.segment := by
    rw [List.map_flatMap, List.flatMap_map]
    simp only [T.contour_edges]
  rw [← contoursOf_edges, ← contoursOf_edges, T.contoursOf_map, inside_split (hR.map T.contour), inside_split hR, e1, i]
  tauto

/-- Images of drawings are drawings. -/
theorem Drawn.image {ps : List Polygon} (h : Drawn ps) (T : Affine) : Drawn (ps.map T.polygon) where
  border := by
    intro p0 hp0
    obtain ⟨p, hp, rfl⟩ := List.mem_map.1 hp0
    exact T.simple (h.border p hp)
  hole := by
    intro p0 hp0 c0 hc0
    obtain ⟨p, hp, rfl⟩ := List.mem_map.1 hp0
    obtain ⟨c, hc, rfl⟩ := List.mem_map.1 hc0
    exact T.simple (h.hole p hp c hc)
  noOverlap := by rw [T.polygons_edges]; exact T.noOverlap h.noOverlap
  sides := by
    refine ⟨?_, ?_⟩
    · intro p0 hp0 e0 he0 q0 hq0 hn ho
      obtain ⟨p, hp, rfl⟩ := List.mem_map.1 hp0
      change e0 ∈ (T.contour p.border).edges at he0
      rw [T.contour_edges] at he0
      obtain ⟨e, he, rfl⟩ := List.mem_map.1 he0
      rw [T.segment_pts] at hq0
      obtain ⟨q, hq, rfl⟩ := hq0
      obtain ⟨o1, o2⟩ := h.others T (List.mem_flatMap.2 ⟨p, hp, List.mem_cons_self⟩) he ho
      exact o2.2 (h.sides.border p hp e he q hq (fun g => hn (g.imp (congrArg T.point) (congrArg T.point))) o1)
    · intro p0 hp0 c0 hc0 e0 he0 q0 hq0 hn ho
      obtain ⟨p, hp, rfl⟩ := List.mem_map.1 hp0
      obtain ⟨c, hc, rfl⟩ := List.mem_map.1 hc0
      rw [T.contour_edges] at he0
      obtain ⟨e, he, rfl⟩ := List.mem_map.1 he0
      rw [T.segment_pts] at hq0
      obtain ⟨q, hq, rfl⟩ := hq0
      obtain ⟨o1, o2⟩ := h.others T (List.mem_flatMap.2 ⟨p, hp, List.mem_cons_of_mem _ hc⟩) he ho
      have := h.sides.hole p hp c hc e he q hq (fun g => hn (g.imp (congrArg T.point) (congrArg T.point))) o1
      clear * - this o2
      tauto
  held := by
    intro p0 hp0 c0 hc0
    obtain ⟨p, hp, rfl⟩ := List.mem_map.1 hp0
    obtain ⟨c, hc, rfl⟩ := List.mem_map.1 hc0
    obtain ⟨p', hp', g⟩ := h.held p hp c hc
    refine ⟨_, List.mem_map_of_mem hp', ?_⟩
    rw [T.region_contour (h.hole p hp c hc), show (T.polygon p').border = T.contour p'.border from rfl, T.region_contour (h.border p' hp')]
    exact Set.image_mono g

end Clipping
