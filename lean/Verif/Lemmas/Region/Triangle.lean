import Verif.Lemmas.BoundingShaped

/-!
# Triangles: examples of valid polygons
-/

namespace Clipping

/-- A triangle. -/
def triangle (a b c : Point) : Contour := ⟨[a, b, c]⟩

theorem triangle_edges (a b c : Point) : (triangle a b c).edges = [⟨a, b⟩, ⟨b, c⟩, ⟨c, a⟩] := rfl

theorem meet_common {a b c q : Point} (h : cross a b c ≠ 0) (h1 : q ∈ (Segment.mk a b).pts) (h2 : q ∈ (Segment.mk b c).pts) :
    q = b := by
  obtain ⟨t, t0, t1, tx, ty⟩ := h1
  obtain ⟨u, u0, u1, ux, uy⟩ := h2
  simp only at tx ty ux uy
  have hu : u * cross a b c = 0 := by
    have h3 : cross a b q = u * cross a b c := by
      unfold cross; rw [ux, uy]; ring
    have h4 : cross a b q = 0 := by
      unfold cross; rw [tx, ty]; ring
    rw [← h3, h4]
  have := (mul_eq_zero.1 hu).resolve_right h
  rw [this] at ux uy
  exact Point.ext' (by linarith) (by linarith)

theorem triangle_simple {a b c : Point} (h : cross a b c ≠ 0) : SimpleContour (triangle a b c) where
  three := by simp [triangle]
  nodup := by
    have h1 : a ≠ b := by rintro rfl; apply h; unfold cross; ring
    have h2 : a ≠ c := by rintro rfl; apply h; unfold cross; ring
    have h3 : b ≠ c := by rintro rfl; apply h; unfold cross; ring
    simp [triangle, h1, h2, h3]
  ends := by
    rw [triangle_edges]
    have h' : cross b c a ≠ 0 := by
      have : cross b c a = cross a b c := by unfold cross; ring
      rw [this]; exact h
    have h'' : cross c a b ≠ 0 := by
      have : cross c a b = cross a b c := by unfold cross; ring
      rw [this]; exact h
    unfold EndsOnly
    simp only [List.pairwise_cons, List.mem_cons, List.not_mem_nil, or_false, forall_eq_or_imp, forall_eq, List.Pairwise.nil,
      and_true, IsEmpty.forall_iff, implies_true]
    refine ⟨⟨?_, ?_⟩, ?_⟩
    · intro q h1 h2
      rw [meet_common h h1 h2]; exact ⟨Or.inr rfl, Or.inl rfl⟩
    · intro q h1 h2
      rw [meet_common h'' h2 h1]; exact ⟨Or.inl rfl, Or.inr rfl⟩
    · intro q h1 h2
      rw [meet_common h' h1 h2]; exact ⟨Or.inr rfl, Or.inl rfl⟩

/-- A simple contour without holes is a valid polygon. -/
theorem SimpleContour.validPolygon {c : Contour} (h : SimpleContour c) : ValidPolygon ⟨c, []⟩ :=
  ⟨h, by simp, by simpa [Polygon.edges] using h.noOverlap, by simp, by simp, by simp⟩

theorem ValidPolygon.validPolygons {p : Polygon} (h : ValidPolygon p) : ValidPolygons [p] :=
  ⟨by simpa using h, by simpa using h.noOverlap, by simp⟩

/-- Two contours, one above the other, which meet in one point at most. -/
theorem stacked_valid {c d : Contour} (hc : SimpleContour c) (hd : SimpleContour d) {v : Point}
    (h1 : (contourBox d).maxY ≤ v.y) (h2 : v.y ≤ (contourBox c).minY)
    (h3 : ∀ q ∈ segsPts c.edges, q.y = v.y → q = v) : ValidPolygons [⟨c, []⟩, ⟨d, []⟩] where
  valid := by
    intro p hp
    simp only [List.mem_cons, List.not_mem_nil, or_false] at hp
    rcases hp with rfl | rfl
    · exact hc.validPolygon
    · exact hd.validPolygon
  noOverlap := by
    have e1 : [(⟨c, []⟩ : Polygon), ⟨d, []⟩].flatMap Polygon.edges = c.edges ++ d.edges := by simp [Polygon.edges]
    rw [e1]
    refine ⟨?_, List.pairwise_append.2 ⟨hc.noOverlap.2, hd.noOverlap.2, ?_⟩⟩
    · intro e he
      rcases List.mem_append.1 he with h | h
      · exact hc.noOverlap.1 e h
      · exact hd.noOverlap.1 e h
    · rintro s hs t ht ⟨p, q, hne, p1, q1, p2, q2⟩
      apply hne
      have key : ∀ r, r ∈ s.pts → r ∈ t.pts → r = v := by
        intro r r1 r2
        have b1 := (hc.segs_sub_box ⟨s, hs, r1⟩).2.2.1
        have b2 := (hd.segs_sub_box ⟨t, ht, r2⟩).2.2.2
        exact h3 r ⟨s, hs, r1⟩ (by linarith)
      rw [key p p1 p2, key q q1 q2]
  apart := by
    rw [List.pairwise_pair]
    have e1 : ∀ c : Contour, (Polygon.mk c []).edges = c.edges := fun c => by simp [Polygon.edges]
    rw [e1, e1]
    constructor
    · intro m hm hn hi
      have b1 := (hc.region_sub_box hm).2.2.1
      have b2 := (hd.inside_box hn hi).2.2.2
      linarith
    · intro m hm hn hi
      have b1 := (hd.region_sub_box hm).2.2.2
      have b2 := (hc.inside_box hn hi).2.2.1
      linarith

end Clipping
