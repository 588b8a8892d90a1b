import Verif.Lemmas.Contacts
import Verif.Lemmas.Region.Square
import Verif.Lemmas.Shaped.CornersResult
import Verif.Spec.Size

/-!
# Sizes of results

Edges of an arrangement do not overlap, so there are no more of them than contacts; the same for contours whose vertices are corners.
-/

namespace Clipping

/-- Edges of an arrangement which overlap are the same. -/
theorem IsEdge.eq_of_overlapping {l : List Segment} {e f : Segment} (he : IsEdge l e) (hf : IsEdge l f) (h : Overlapping e f) : e = f := by
  have pe : e.Proper := he.lt.ne
  have pf : f.Proper := hf.lt.ne
  have line := overlapping_line pe pf h
  have le : e.lo = e.start ∧ e.hi = e.stop := ⟨min_eq_left he.lt.le, max_eq_right he.lt.le⟩
  have lf : f.lo = f.start ∧ f.hi = f.stop := ⟨min_eq_left hf.lt.le, max_eq_right hf.lt.le⟩
  obtain ⟨p, q, hlt, p1, q1, p2, q2⟩ : ∃ p q, p < q ∧ p ∈ e.pts ∧ q ∈ e.pts ∧ p ∈ f.pts ∧ q ∈ f.pts := by
    obtain ⟨p, q, hne, p1, q1, p2, q2⟩ := h
    rcases lt_or_gt_of_ne hne with g | g
    · exact ⟨p, q, g, p1, q1, p2, q2⟩
    · exact ⟨q, p, g, q1, p1, q2, p2⟩
  have key : ∀ {e f : Segment}, IsEdge l e → IsEdge l f → (∀ q, cross e.lo e.hi q = 0 ↔ cross f.lo f.hi q = 0) →
      e.lo = e.start ∧ e.hi = e.stop → f.lo = f.start ∧ f.hi = f.stop → p ∈ e.pts → q ∈ e.pts → p ∈ f.pts → q ∈ f.pts →
      ¬ e.start < f.start ∧ ¬ f.stop < e.stop := by
    intro e f he hf line le lf p1 q1 p2 q2
    have a1 := mem_between he.lt p1
    have a2 := mem_between he.lt q1
    have b1 := mem_between hf.lt p2
    have b2 := mem_between hf.lt q2
    constructor
    · intro hc
      have hm : f.start ∈ e.pts := (Segment.mem_iff he.lt.ne).2
        ⟨(line _).2 ((Segment.mem_iff hf.lt.ne).1 (Segment.start_mem f)).1, by rw [le.1]; exact hc.le,
          by rw [le.2]; exact b1.1.trans (hlt.le.trans a2.2)⟩
      rcases he.inner _ hm hf.start with g | g
      · exact hc.ne' g
      · exact absurd (b1.1.trans_lt (hlt.trans_le a2.2)) (by rw [g]; exact lt_irrefl _)
    · intro hc
      have hm : f.stop ∈ e.pts := (Segment.mem_iff he.lt.ne).2
        ⟨(line _).2 ((Segment.mem_iff hf.lt.ne).1 (Segment.stop_mem f)).1, by rw [le.1]; exact a1.1.trans (hlt.le.trans b2.2),
          by rw [le.2]; exact hc.le⟩
      rcases he.inner _ hm hf.stop with g | g
      · exact absurd (a1.1.trans_lt (hlt.trans_le b2.2)) (by rw [g]; exact lt_irrefl _)
      · exact hc.ne g
  obtain ⟨k1, k2⟩ := key he hf line le lf p1 q1 p2 q2
  obtain ⟨k3, k4⟩ := key hf he (fun q => (line q).symm) lf le p2 q2 p1 q1
  have e1 : e.start = f.start := le_antisymm (not_lt.1 k3) (not_lt.1 k1)
  have e2 : e.stop = f.stop := le_antisymm (not_lt.1 k2) (not_lt.1 k4)
  cases e; cases f
  simp only at e1 e2
  rw [e1, e2]

theorem IsEdge.noOverlap {l r : List Segment} (nd : r.Nodup) (h : ∀ e ∈ r, IsEdge l e) : NoOverlap r :=
  ⟨fun e he => (h e he).lt.ne, List.Pairwise.imp_of_mem (fun he hf hne ho => hne ((h _ he).eq_of_overlapping (h _ hf) ho)) nd⟩

/-- There are no more edges than contacts. -/
theorem IsEdge.length_le {l r : List Segment} (pr : ∀ s ∈ l, s.Proper) (nd : r.Nodup) (h : ∀ e ∈ r, IsEdge l e) : r.length ≤ contacts l := by
  refine length_le_of_vertices pr (IsEdge.noOverlap nd h) (fun c hc q hq => ?_) (fun c hc => ?_)
  · obtain ⟨s, hs, hw⟩ := (h c hc).within
    exact ⟨s, hs, hw hq⟩
  · have : c.lo = c.start := min_eq_left (h c hc).lt.le
    rw [this]
    exact (h c hc).start

theorem edges_length (c : Contour) : c.edges.length = c.vertices.length := by
  obtain ⟨vs⟩ := c
  cases vs with
  | nil => rfl
  | cons v vs => simp [Contour.edges]

theorem vertexCount_eq (ps : List Polygon) : vertexCount ps = (ps.flatMap Polygon.edges).length := by
  unfold vertexCount
  induction ps with
  | nil => rfl
  | cons p ps ih =>
    rw [List.flatMap_cons, List.flatMap_cons, List.map_append, List.sum_append, List.length_append, ih]
    congr 1
    unfold Polygon.edges
    rw [List.length_append, edges_length, List.length_flatMap, List.map_cons, List.sum_cons]
    simp only [edges_length]

theorem IsCorner.vertex {A B : List Segment} {v : Point} (h : IsCorner A B v) : Vertex (A ++ B) v := by
  rcases h with h | ⟨s, hs, t, ht, e⟩
  · exact Or.inl h
  · exact Or.inr ⟨s, List.mem_append_left _ hs, t, List.mem_append_right _ ht, e⟩

/-- Contours which consist of parts of edges and have their vertices at corners are not larger than the number of contacts. -/
theorem Outlines.size {op : Bool → Bool → Bool} {A B : List Segment} {ps : List Polygon} (pr : ∀ s ∈ A ++ B, s.Proper)
    (O : Outlines op A B ps) (C : CornersOnly A B ps) : vertexCount ps ≤ contacts (A ++ B) := by
  rw [vertexCount_eq]
  refine length_le_of_vertices pr O.noOverlap (fun c hc q hq => O.within ⟨c, hc, hq⟩) (fun e he => ?_)
  obtain ⟨p, hp, he⟩ := List.mem_flatMap.1 he
  obtain ⟨c, hc, he⟩ : ∃ c ∈ p.border :: p.holes, e ∈ c.edges := by
    rcases List.mem_append.1 he with h | h
    · exact ⟨_, List.mem_cons_self, h⟩
    · obtain ⟨c, hc, h⟩ := List.mem_flatMap.1 h
      exact ⟨c, List.mem_cons_of_mem _ hc, h⟩
  obtain ⟨v1, v2⟩ := edge_vertices he
  apply IsCorner.vertex
  rcases min_choice e.start e.stop with g | g
  · rw [show e.lo = e.start from g]; exact C p hp c hc _ v1
  · rw [show e.lo = e.stop from g]; exact C p hp c hc _ v2

end Clipping
