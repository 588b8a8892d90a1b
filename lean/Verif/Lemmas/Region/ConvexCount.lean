import Verif.Lemmas.Region.ConvexParts
import Verif.Lemmas.Region.PlainContours
import Verif.Lemmas.Shaped.Corners
import Verif.Lemmas.Shaped.Normal
import Verif.Lemmas.Size
import Verif.Spec.Unique

/-!
# Edges of convex contours

Each line has one edge of a convex contour without superfluous vertices at most.  So there are no more of them than segments which they run along.
-/

namespace Clipping

/-- From every vertex of a contour without superfluous vertices an edge leads away from a line through the vertex. -/
theorem SimpleContour.exists_off {c : Contour} (h : SimpleContour c) (hk : c.Cornered) {u v : Point} (hv : v ∈ c.vertices) (huv : u ≠ v) :
    ∃ w, cross u v w ≠ 0 ∧ (Segment.mk v w).pts ⊆ segsPts c.edges := by
  obtain ⟨a, b, rest, hr⟩ := rotated_middle h.three hv
  have e := edges_rotated hr
  have hc := hk a v b rest hr
  have e1 : (⟨a, v⟩ : Segment) ∈ c.edges := e.mem_iff.2 (by rw [(edges_three a v b rest).1]; simp)
  have e2 : (⟨v, b⟩ : Segment) ∈ c.edges := e.mem_iff.2 (by rw [(edges_three a v b rest).1]; simp)
  by_cases h1 : cross u v a = 0
  · refine ⟨b, fun h2 => hc ?_, fun q hq => ⟨_, e2, hq⟩⟩
    have hne : v.x - u.x ≠ 0 ∨ v.y - u.y ≠ 0 := by
      by_contra hn
      push Not at hn
      exact huv (Point.ext' (by linarith) (by linarith))
    unfold cross at h1 h2 ⊢
    rcases hne with hx | hx <;> refine (mul_eq_zero.1 (?_ : (_ : ℚ) * _ = 0)).resolve_left hx
    · linear_combination (b.x - v.x) * h1 - (a.x - v.x) * h2
    · linear_combination (b.y - v.y) * h1 - (a.y - v.y) * h2
  · refine ⟨a, h1, fun q hq => ⟨_, e1, ?_⟩⟩
    obtain ⟨t, t0, t1, tx, ty⟩ := hq
    exact ⟨1 - t, by linarith, by linarith, by simp only at tx ⊢; linarith, by simp only at ty ⊢; linarith⟩

/-- The points of a convex region on the line of an edge are not beyond its end. -/
theorem SimpleContour.not_beyond {c : Contour} (h : SimpleContour c) (hk : c.Cornered) (hc : ConvexSet (regionPts c.edges)) {u v x : Point}
    (hv : v ∈ c.vertices) (huv : u ≠ v) (hu : u ∈ regionPts c.edges) (hx : x ∈ regionPts c.edges) {t : ℚ} (t1 : 1 < t)
    (xx : x.x = u.x + t * (v.x - u.x)) (xy : x.y = u.y + t * (v.y - u.y)) : False := by
  obtain ⟨w, hw, hs⟩ := h.exists_off hk hv huv
  have t0 : (0 : ℚ) < t := by linarith
  have it : t⁻¹ * t = 1 := inv_mul_cancel₀ t0.ne'
  have hm : (⟨(v.x + w.x) / 2, (v.y + w.y) / 2⟩ : Point) ∈ segsPts c.edges :=
    hs ⟨1 / 2, by norm_num, by norm_num, by simp only; ring, by simp only; ring⟩
  have hw' : w ∈ regionPts c.edges := Or.inl (hs ⟨1, by norm_num, le_rfl, by simp only; ring, by simp only; ring⟩)
  have hD : cross u x w ≠ 0 := by
    have : cross u x w = t * cross u v w := by
      unfold cross
      rw [xx, xy]
      ring
    rw [this]
    exact mul_ne_zero t0.ne' hw
  have := hc.deep_half (m := ⟨(v.x + w.x) / 2, (v.y + w.y) / 2⟩) hu hx hw' hD (t := t⁻¹) (inv_pos.2 t0) (inv_lt_one_of_one_lt₀ t1)
    (by simp only; rw [xx]; linear_combination (-(v.x - u.x) / 2) * it) (by simp only; rw [xy]; linear_combination (-(v.y - u.y) / 2) * it)
  exact ((deep_region h.noOverlap h.even).1 this).1 hm

/-- The points of a convex region on the line of an edge are on the edge. -/
theorem SimpleContour.on_edge {c : Contour} (h : SimpleContour c) (hk : c.Cornered) (hc : ConvexSet (regionPts c.edges)) {e : Segment}
    (he : e ∈ c.edges) {x : Point} (hx : x ∈ regionPts c.edges) (h0 : cross e.start e.stop x = 0) : x ∈ e.pts := by
  have pr : e.start ≠ e.stop := h.noOverlap.1 e he
  have hv := edge_vertices he
  have hs : e.start ∈ regionPts c.edges := Or.inl ⟨e, he, 0, le_rfl, by norm_num, by ring, by ring⟩
  have ht : e.stop ∈ regionPts c.edges := Or.inl ⟨e, he, 1, by norm_num, le_rfl, by ring, by ring⟩
  obtain ⟨t, tx, ty⟩ : ∃ t : ℚ, x.x = e.start.x + t * (e.stop.x - e.start.x) ∧ x.y = e.start.y + t * (e.stop.y - e.start.y) := by
    unfold cross at h0
    by_cases hx0 : e.stop.x - e.start.x = 0
    · have hy0 : e.stop.y - e.start.y ≠ 0 := fun hy => pr (Point.ext' (by linarith) (by linarith))
      refine ⟨(x.y - e.start.y) / (e.stop.y - e.start.y), ?_, ?_⟩
      · rw [hx0] at h0 ⊢
        have : x.x - e.start.x = 0 := by
          have : (e.stop.y - e.start.y) * (x.x - e.start.x) = 0 := by linarith
          exact (mul_eq_zero.1 this).resolve_left hy0
        linarith
      · rw [div_mul_cancel₀ _ hy0]; ring
    · refine ⟨(x.x - e.start.x) / (e.stop.x - e.start.x), ?_, ?_⟩
      · rw [div_mul_cancel₀ _ hx0]; ring
      · have k : (x.x - e.start.x) / (e.stop.x - e.start.x) * (e.stop.x - e.start.x) = x.x - e.start.x := div_mul_cancel₀ _ hx0
        refine mul_left_cancel₀ hx0 ?_
        linear_combination h0 - (e.stop.y - e.start.y) * k
  by_cases h1 : 1 < t
  · exact (h.not_beyond hk hc hv.2 pr hs hx h1 tx ty).elim
  by_cases h2 : t < 0
  · exact (h.not_beyond hk hc hv.1 pr.symm ht hx (t := 1 - t) (by linarith) (by rw [tx]; ring) (by rw [ty]; ring)).elim
  exact ⟨t, by linarith, by linarith, tx, ty⟩

/-- A segment which runs along several ones has two points in common with one of them. -/
theorem exists_shared {e : Segment} (he : e.Proper) {L : List Segment} (hs : e.pts ⊆ segsPts L) : ∃ i : Fin L.length, Overlapping e L[i] := by
  by_contra hn
  push Not at hn
  refine overlapping_of_finite_false he ((Set.finite_iUnion (f := fun i : Fin L.length => e.pts ∩ L[i].pts) fun i => ?_).subset fun q hq => ?_)
  · refine Set.Subsingleton.finite fun p hp q hq => ?_
    by_contra hpq
    exact hn i ⟨p, q, hpq, hp.1, hq.1, hp.2, hq.2⟩
  · obtain ⟨s, hs, hq'⟩ := hs hq
    obtain ⟨i, hi, rfl⟩ := List.mem_iff_getElem.1 hs
    exact Set.mem_iUnion.2 ⟨⟨i, hi⟩, hq, hq'⟩

/-- A convex contour without superfluous vertices has no more vertices than there are segments which it runs along. -/
theorem SimpleContour.convex_count {c : Contour} (h : SimpleContour c) (hk : c.Cornered) (hc : ConvexSet (regionPts c.edges)) {L : List Segment}
    (hs : segsPts c.edges ⊆ segsPts L) : c.vertices.length ≤ L.length := by
  rw [← edges_length]
  have key : ∀ i : Fin c.edges.length, ∃ j : Fin L.length, Overlapping c.edges[i] L[j] := fun i =>
    exists_shared (h.noOverlap.1 _ (List.getElem_mem _)) fun q hq => hs ⟨_, List.getElem_mem _, hq⟩
  choose f hf using key
  have inj : Function.Injective f := by
    have one : ∀ i j : Fin c.edges.length, f i = f j → Overlapping c.edges[i] c.edges[j] := by
      intro i j hij
      obtain ⟨p, q, hpq, p1, q1, p2, q2⟩ := hf i
      obtain ⟨p', q', hpq', p1', q1', p2', q2'⟩ := hf j
      rw [← hij] at p2' q2'
      have hi : c.edges[i] ∈ c.edges := List.getElem_mem _
      have hj : c.edges[j] ∈ c.edges := List.getElem_mem _
      refine ⟨p', q', hpq', ?_, ?_, p1', q1'⟩
      · exact h.on_edge hk hc hi (Or.inl ⟨_, hj, p1'⟩) (collinear_of_common hpq p1 q1 p2 q2 p2')
      · exact h.on_edge hk hc hi (Or.inl ⟨_, hj, q1'⟩) (collinear_of_common hpq p1 q1 p2 q2 q2')
    intro i j hij
    have pw := List.pairwise_iff_getElem.1 h.noOverlap.2
    rcases lt_trichotomy i j with hl | rfl | hl
    · exact (pw i j i.2 j.2 hl (one i j hij)).elim
    · rfl
    · exact (pw j i j.2 i.2 hl (one j i hij.symm)).elim
  simpa using Fintype.card_le_of_injective f inj

end Clipping
