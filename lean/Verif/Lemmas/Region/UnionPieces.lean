import Verif.Lemmas.Region.UnionLinked

/-!
# Pieces of unions
-/

namespace Clipping

open Sweep

/-- A region with connected inside, which has a point inside of a polygon and is a part of the union of polygons, is a part of this polygon. -/
theorem ValidPolygons.linked_inside {ps : List Polygon} (h : ValidPolygons ps) {A : List Segment} (w : Whole A) (s : regionPts A ⊆ polysPts ps)
    {p : Polygon} (hp : p ∈ ps) {x y : Point} (hx : x ∉ segsPts A) (ix : Inside A x) (kx : Inside p.edges x) (hy : y ∉ segsPts A) (iy : Inside A y) :
    y ∉ segsPts (ps.flatMap Polygon.edges) ∧ Inside p.edges y := by
  have nE := h.noOverlap
  have dE : ∀ q, Even (degree (ps.flatMap Polygon.edges) q) := h.noOverlap_even.2
  rw [h.polysPts_eq] at s
  have V := h.valid p hp
  refine ⟨((deep_region nE dE).1 (((deep_region w.no w.even).2 ⟨hy, iy⟩).mono s)).1, ?_⟩
  have l := ((w.conn x y hx hy ix iy).within w.no w.even nE dE s ix).1
  exact ((l.mono fun r ⟨e, he, k⟩ => ⟨e, List.mem_flatMap.2 ⟨p, hp, he⟩, k⟩).inside_iff V.noOverlap.1 V.even).1 kx

theorem ValidPolygons.linked_subset {ps : List Polygon} (h : ValidPolygons ps) {A : List Segment} (w : Whole A) (s : regionPts A ⊆ polysPts ps)
    {p : Polygon} (hp : p ∈ ps) {x : Point} (hx : x ∉ segsPts A) (ix : Inside A x) (kx : Inside p.edges x) : regionPts A ⊆ p.pts := by
  intro q hq
  have V := h.valid p hp
  rw [polygon_pts_eq, mem_region_iff (X := []) V.noOverlap V.even (by simp)]
  intro δ δ0
  obtain ⟨y, y1, y2, y3, y4⟩ := (mem_region_iff (X := []) w.no w.even (by simp)).1 hq δ δ0
  obtain ⟨k1, k2⟩ := h.linked_inside w s hp hx ix kx y3 y4
  exact ⟨y, y1, y2, fun ⟨e, he, k⟩ => k1 ⟨e, List.mem_flatMap.2 ⟨p, hp, he⟩, k⟩, k2⟩

/-- In each of the polygons with the points of the union of regions, there is a point inside of one of the regions. -/
theorem ValidPolygons.exists_piece {ps : List Polygon} (h : ValidPolygons ps) {As : List (List Segment)} (w : ∀ A ∈ As, Whole A)
    (e : polysPts ps = {q | ∃ A ∈ As, q ∈ regionPts A}) {p : Polygon} (hp : p ∈ ps) :
    ∃ A ∈ As, ∃ x, x ∉ segsPts A ∧ Inside A x ∧ Inside p.edges x := by
  obtain ⟨v, v1, v2⟩ := h.exists_inside hp
  have V := h.valid p hp
  obtain ⟨δ, δ0, hδ⟩ := inside_near V.noOverlap.1 V.even fun ⟨s, hs, k⟩ => v1 ⟨s, List.mem_flatMap.2 ⟨p, hp, hs⟩, k⟩
  have vU : v ∈ polysPts ps := by
    rw [h.polysPts_eq]
    exact Or.inr (h.inside_of hp v1 v2)
  rw [e] at vU
  obtain ⟨A, hA, k⟩ := vU
  obtain ⟨z, z1, -, z3, z4⟩ := (mem_region_iff (X := []) (w A hA).no (w A hA).even (by simp)).1 k δ δ0
  exact ⟨A, hA, z, z3, z4, (hδ z z1).2.2 v2⟩

/-- Each of the polygons with the points of the union of regions with connected insides contains one of the regions. -/
theorem ValidPolygons.piece_contains {ps : List Polygon} (h : ValidPolygons ps) {As : List (List Segment)} (w : ∀ A ∈ As, Whole A)
    (e : polysPts ps = {q | ∃ A ∈ As, q ∈ regionPts A}) {p : Polygon} (hp : p ∈ ps) : ∃ A ∈ As, regionPts A ⊆ p.pts := by
  obtain ⟨A, hA, x, x1, x2, x3⟩ := h.exists_piece w e hp
  exact ⟨A, hA, h.linked_subset (w A hA) (fun q hq => by rw [e]; exact ⟨A, hA, hq⟩) hp x1 x2 x3⟩

/-- Each of the regions is in one of the polygons. -/
theorem ValidPolygons.piece_within {ps : List Polygon} (h : ValidPolygons ps) {A : List Segment} (w : Whole A) (s : regionPts A ⊆ polysPts ps)
    {x : Point} (hx : x ∉ segsPts A) (ix : Inside A x) : ∃ p ∈ ps, regionPts A ⊆ p.pts := by
  have nE := h.noOverlap
  have dE : ∀ q, Even (degree (ps.flatMap Polygon.edges) q) := h.noOverlap_even.2
  have s' := s
  rw [h.polysPts_eq] at s'
  have d := (deep_region nE dE).1 (((deep_region w.no w.even).2 ⟨hx, ix⟩).mono s')
  obtain ⟨p, hp, k⟩ := s (Or.inr ix)
  rw [polygon_pts_eq] at k
  exact ⟨p, hp, h.linked_subset w s hp hx ix (k.resolve_left fun ⟨e, he, k⟩ => d.1 ⟨e, List.mem_flatMap.2 ⟨p, hp, he⟩, k⟩)⟩

/-- There are not more polygons than regions. -/
theorem ValidPolygons.pieces_le {ps : List Polygon} (h : ValidPolygons ps) {As : List (List Segment)} (w : ∀ A ∈ As, Whole A)
    (e : polysPts ps = {q | ∃ A ∈ As, q ∈ regionPts A}) : ps.length ≤ As.length := by
  have key : ∀ i : Fin ps.length, ∃ j : Fin As.length, ∃ x, x ∉ segsPts As[j] ∧ Inside As[j] x ∧ Inside ps[i].edges x := by
    intro i
    obtain ⟨A, hA, x, hx⟩ := h.exists_piece w e (List.getElem_mem i.2)
    obtain ⟨j, hj, rfl⟩ := List.getElem_of_mem hA
    exact ⟨⟨j, hj⟩, x, hx⟩
  choose f x x1 x2 x3 using key
  have lt : ∀ i j : Fin ps.length, i < j → f i ≠ f j := by
    intro i j hij hf
    have hA : As[f i] ∈ As := List.getElem_mem _
    have s : regionPts As[f i] ⊆ polysPts ps := fun q hq => by rw [e]; exact ⟨_, hA, hq⟩
    have y1 := x1 j
    have y2 := x2 j
    rw [← hf] at y1 y2
    obtain ⟨k1, k2⟩ := h.linked_inside (w _ hA) s (List.getElem_mem i.2) (x1 i) (x2 i) (x3 i) y1 y2
    have ap := (List.pairwise_iff_getElem.1 h.apart i j i.2 j.2 hij).1
    exact ap (x j) (Or.inr k2) (fun ⟨s, hs, k⟩ => k1 ⟨s, List.mem_flatMap.2 ⟨_, List.getElem_mem j.2, hs⟩, k⟩) (x3 j)
  have inj : Function.Injective f := by
    intro i j hij
    rcases lt_trichotomy i j with k | k | k
    · exact absurd hij (lt i j k)
    · exact k
    · exact absurd hij.symm (lt j i k)
  simpa using Fintype.card_le_of_injective f inj

end Clipping
